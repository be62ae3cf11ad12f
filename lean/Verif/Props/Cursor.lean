import Verif.Props.VectHist
import Verif.Props.VectMagMore

/-!
# C72 for geographic vectors
-/

set_option autoImplicit false

namespace Ocb.Scale

open Real Ocb.Time Ocb.Coord Ocb.Vec

/-- On magnetic vectors `set_ocb` leaves the components alone. -/
theorem setOcb_vectN {conv : VD → Arr Tod → ℤ → Except PyErr VD} {b : Bnd} {f : Option (F → F → F → F)} {v w : VD} {c : ℤ}
    (hm : v.vectCoord = "magnetic") (h : setOcb conv b f v = .ok (w, c)) : w.vectN = v.vectN ∧ w.vectE = v.vectE := by
  obtain ⟨-, v1, h1, hr⟩ := setOcb_inv hm h
  obtain ⟨_, _, _, _, rfl⟩ := fillCoords_only h1
  rcases hr with ⟨-, rfl⟩ | ⟨-, v2, h2, h3⟩
  · exact ⟨rfl, rfl⟩
  · obtain ⟨a1, a2, a3, a4, a5, -, -, hr⟩ := steps_inv h2 h3
    rcases hr with ⟨-, rfl⟩ | ⟨h5, a6, a7, n, e, z, m, g', hg, -, -, rfl⟩
    · exact ⟨rfl, rfl⟩
    · exact ⟨rfl, rfl⟩

/-- C72 is false for geographic vectors: with a single index the vectors are converted with the magnetic pole at the
time of the record that the boundary object happens to point to.  Two calls that differ only in that record disagree
whenever the component towards the magnetic pole differs between the two times. -/
theorem C72_geographic_refuted (lower : String → String)
    (hl : ∀ s ∈ ["magnetic", "geocentric", "geodetic"], lower s = s) (A : Aacgm) (b : Bnd) (f : Option (F → F → F → F))
    (v w w' : VD) (k r c c' : ℤ) (t t' : Tod) (y y' : GeoIn) (hk : v.ocbInd = .one k)
    (ht : pyIdx b.dtime b.recInd = .ok t) (ht' : pyIdx b.dtime r = .ok t')
    (h : HoldsGeo A b.hem v (.one t) 1 fun _ => y) (h' : HoldsGeo A b.hem v (.one t') 1 fun _ => y')
    (hg : y.Good) (hg' : y'.Good) (hN : 0 < y.plat) (hN' : 0 < y'.plat) (hne : y.poleward ≠ y'.poleward)
    (s : setOcb (updateVect lower A) b f v = .ok (w, c))
    (s' : setOcb (updateVect lower A) { b with recInd := r } f v = .ok (w', c')) :
    (Reads w.vectN 1 fun _ => some y.poleward) ∧ (Reads w'.vectN 1 fun _ => some y'.poleward) ∧ w.vectN ≠ w'.vectN := by
  have hvm : v.vectCoord ≠ "magnetic" := by rcases h.coord with h | h <;> rw [h] <;> decide
  have e1 : timesOf b v = .ok (.one t) := by unfold timesOf; rw [hk]; simp only; rw [ht]; rfl
  have e2 : timesOf { b with recInd := r } v = .ok (.one t') := by unfold timesOf; rw [hk]; simp only; rw [ht']; rfl
  obtain ⟨x, x1, x2, -, x4, -⟩ := C118_northern_partial lower hl A b.hem v (.one t) 1 one_pos _ h (fun _ _ => hg) (fun _ _ => hN)
  obtain ⟨x', x1', x2', -, x4', -⟩ :=
    C118_northern_partial lower hl A b.hem v (.one t') 1 one_pos _ h' (fun _ _ => hg') (fun _ _ => hN')
  rw [C121_steps lower A b f v x _ e1 hvm x1 (hl _ (by simp)) x2 (updateVect lower A)] at s
  rw [C121_steps lower A { b with recInd := r } f v x' _ e2 hvm x1' (hl _ (by simp)) x2' (updateVect lower A)] at s'
  have n1 := (setOcb_vectN x2 s).1
  have n2 := (setOcb_vectN x2' s').1
  rw [n1, n2]
  refine ⟨x4, x4', fun hc => hne ?_⟩
  rw [hc] at x4
  exact Option.some.inj (x4.unique x4' 0 one_pos)

/-! ## An example -/

/-- Noon. -/
def noonTod : Tod := { hour := 12, minute := 0, second := 0, micro := 0 }

theorem ut_noon : utHours noonTod = 12 := by norm_num [utHours, noonTod]

/-- A library with the magnetic pole at 80 degrees and longitude 0, that puts the data at 75 degrees and 3 h. -/
noncomputable def sunA : Aacgm := { geoA with g2a := fun _ _ _ _ _ => (some 75, some 3) }

/-- An eastward geodetic vector at 60 degrees and 3 h. -/
noncomputable def sunVD : VD :=
  { exVD with
    datInd := .one 0, ocbInd := .one 0, lat := .one (some 60), lt := .one (some 3), height := .one (some 350)
    vectN := .one (some 0), vectE := .one (some 4), vectZ := .one (some 0), vectCoord := "geodetic", locCoord := "geodetic"
    ocbLat := .one (some 80), ocbMlt := .one (some 2), rCorr := .one (some 0) }

/-- The same at one time. -/
noncomputable def sunY (t : Tod) : GeoIn :=
  { da := 60, dl := 3, n := 0, e := 4, z := 0, plat := 80, plon := 0, h := some 350, t := t }

theorem sunVD_holds (t : Tod) : HoldsGeo sunA 1 sunVD (.one t) 1 fun _ => sunY t := by
  refine ⟨.inr rfl, .inl rfl, .inl ⟨_, rfl, fun _ _ => rfl⟩, .inl ⟨_, rfl, fun _ _ => rfl⟩, .inl ⟨_, rfl, fun _ _ => rfl⟩,
    .inl ⟨_, rfl, fun _ _ => rfl⟩, .inl ⟨_, rfl, fun _ _ => rfl⟩, rfl, fun _ => .inl rfl, fun h => absurd rfl h, fun i hi => ?_,
    .inl ⟨rfl, .inl ⟨_, rfl, fun _ _ => rfl⟩, .inl ⟨_, rfl, fun _ _ => rfl⟩, 0, one_pos, fun _ _ => ⟨75, 3, rfl⟩⟩⟩
  simp only [sunA, geoA, sunY, Option.map_some]
  norm_num

theorem sunY_good (t : Tod) (h : t = midnight ∨ t = noonTod) : (sunY t).Good := by
  refine ⟨?_, ?_, ?_, fun k hk => ?_, ?_⟩
  · norm_num [sunY, abs_lt]
  · norm_num [sunY, abs_lt]
  · norm_num [sunY]
  · simp only [sunY] at hk
    rcases h with rfl | rfl
    · rw [ut_midnight] at hk
      exact not_twelfth (x := 3) (by norm_num) (by norm_num) (-k) (by push_cast; linarith)
    · rw [ut_noon] at hk
      exact not_twelfth (x := 9) (by norm_num) (by norm_num) k (by linarith)
  · norm_num [sunY]

/-- At midnight the pole is to the west of the vector, at noon to the east. -/
theorem sunY_sides : (sunY midnight).poleward < 0 ∧ 0 < (sunY noonTod).poleward := by
  have h60 : cos (radians 60) ≠ 0 := (cos_lat_pos (by norm_num [abs_lt])).ne'
  have h80 : 0 < cos (radians 80) := cos_lat_pos (by norm_num [abs_lt])
  have s1 : sin (hourAngle (0 / 15 + utHours midnight - 3)) < 0 := by
    rw [ut_midnight]
    apply sin_neg_of_neg_of_neg_pi_lt <;> unfold hourAngle <;> norm_num <;> nlinarith [pi_pos]
  have s2 : 0 < sin (hourAngle (0 / 15 + utHours noonTod - 3)) := by
    rw [ut_noon]
    apply sin_pos_of_pos_of_lt_pi <;> unfold hourAngle <;> norm_num <;> nlinarith [pi_pos]
  constructor
  · unfold GeoIn.poleward
    rw [towards_eq]
    have hp := tLen_pos (a := radians 60) (b := radians 80) h60 s1.ne
    simp only [sunY, zero_mul, zero_add]
    apply div_neg_of_neg_of_pos _ hp
    unfold tE
    nlinarith [mul_neg_of_pos_of_neg h80 s1]
  · unfold GeoIn.poleward
    rw [towards_eq]
    have hp := tLen_pos (a := radians 60) (b := radians 80) h60 s2.ne'
    simp only [sunY, zero_mul, zero_add]
    apply div_pos _ hp
    unfold tE
    nlinarith [mul_pos h80 s2]

/-- Two records, one at midnight and one at noon. -/
noncomputable def sunBnd : Bnd := { exBnd midnight with dtime := [midnight, noonTod] }

/-- The hypotheses of `C72_geographic_refuted` are met; both calls succeed. -/
example (lower : String → String) (hl : ∀ s ∈ ["magnetic", "geocentric", "geodetic"], lower s = s) :
    sunVD.ocbInd = .one 0 ∧ pyIdx sunBnd.dtime sunBnd.recInd = .ok midnight ∧ pyIdx sunBnd.dtime 1 = .ok noonTod ∧
    (sunY midnight).poleward ≠ (sunY noonTod).poleward ∧ (∃ w c, setOcb (updateVect lower sunA) sunBnd none sunVD = .ok (w, c)) ∧
    ∃ w c, setOcb (updateVect lower sunA) { sunBnd with recInd := 1 } none sunVD = .ok (w, c) := by
  have key : ∀ (r : ℤ) (t : Tod), (t = midnight ∨ t = noonTod) → pyIdx sunBnd.dtime r = .ok t →
      ∃ w c, setOcb (updateVect lower sunA) { sunBnd with recInd := r } none sunVD = .ok (w, c) := by
    intro r t ht hr
    have hgood := sunY_good t ht
    have hN : 0 < (sunY t).plat := by norm_num [sunY]
    obtain ⟨w, c, h, -⟩ := C121_northern_partial lower hl sunA { sunBnd with recInd := r } sunVD (.one t) 1 one_pos
      (fun _ => sunY t) (sunVD_holds t) (fun _ _ => hgood) (fun _ _ => hN) (by unfold timesOf; show Except.map _ (pyIdx sunBnd.dtime r) = _; rw [hr]; rfl)
      (fun _ => { exPt 0 with n := (sunY t).poleward, e := (sunY t).rightward, z := 0 }) (fun i hi => by
        obtain ⟨⟨a, b, c, d, e, f, g⟩, h, -⟩ := exPt_good midnight 0 (by norm_num)
        refine ⟨⟨a, b, c, d, e, f, g⟩, h, ?_⟩
        rintro ⟨h1, h2⟩
        have := hgood.keeps hN
        have h1' : (sunY t).poleward = 0 := h1
        have h2' : (sunY t).rightward = 0 := h2
        rw [h1', h2'] at this
        norm_num [sunY] at this)
      (fun _ _ => ⟨rfl, rfl, rfl⟩) (fun _ _ _ _ _ => rfl) (fun hc => by simp [sunVD] at hc) (.inl ⟨_, rfl, fun _ _ => rfl⟩)
      ⟨⟨t, hr⟩, fun i hi => ⟨midnight, rfl⟩⟩
      (.known ⟨⟨fun _ => 80, .inl ⟨_, rfl, fun _ _ => rfl⟩⟩, ⟨fun _ => 2, .inl ⟨_, rfl, fun _ _ => rfl⟩⟩, .inl ⟨_, rfl, fun _ _ => rfl⟩⟩)
      (.inr rfl) rfl
    exact ⟨w, c, h⟩
  exact ⟨rfl, rfl, rfl, (sunY_sides.1.trans sunY_sides.2).ne, key 0 midnight (.inl rfl) rfl, key 1 noonTod (.inr rfl) rfl⟩

end Ocb.Scale
