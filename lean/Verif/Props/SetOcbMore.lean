import Verif.Props.SetOcb

/-!
# C71-C75: where `set_ocb` and the constructor fall short
-/

set_option autoImplicit false

namespace Ocb.Scale

open Ocb.Time Ocb.Coord Ocb.Vec

theorem Reads.unique {α : Type*} {a : Arr α} {m : ℕ} {f g : ℕ → α} (h1 : Reads a m f) (h2 : Reads a m g) (i : ℕ)
    (hi : i < m) : f i = g i := by
  rcases h1 with ⟨x, rfl, hx⟩ | rfl
  · rcases h2 with ⟨y, hy, hy'⟩ | h2
    · cases hy; rw [hx i hi, hy' i hi]
    · exact absurd h2 (by simp)
  · rcases h2 with ⟨y, hy, hy'⟩ | h2
    · exact absurd hy (by simp)
    · have h3 := Arr.many.inj h2
      have h4 := congrArg (fun l => l[i]?) h3
      simpa [hi] using h4

/-! ## C71 -/

theorem tE_neg (b L : ℝ) : tE (-b) L = tE b L := by unfold tE; rw [Real.cos_neg]

/-- The mirror image of the circle's centre lies on the other side for an eastward vector. -/
theorem mirror_sign {da dl e rho phi : ℝ} (hlat : |da| < 90) (h0 : 0 < rho) (h90 : rho < 90)
    (hoff : ∀ i : ℤ, phi / 15 ≠ dl + 12 * i) (he : e ≠ 0) :
    towards (place da dl) (place (90 - rho) (phi / 15)) (horiz da dl 0 e) *
      (-towards (place da dl) (place (-(90 - rho)) (phi / 15)) (horiz da dl 0 e)) < 0 := by
  have h' : Real.sin (hourAngle (phi / 15 - dl)) ≠ 0 := by
    rw [Ne, sin_hour_zero]; push Not; exact hoff
  rw [towards_eq, towards_eq]
  have hpos := tLen_pos (a := radians da) (b := radians (90 - rho)) (cos_lat_pos hlat).ne' h'
  have hpos' := tLen_pos (a := radians da) (b := radians (-(90 - rho))) (cos_lat_pos hlat).ne' h'
  have hw : tE (radians (90 - rho)) (hourAngle (phi / 15 - dl)) ≠ 0 :=
    mul_ne_zero (cos_lat_pos (by rw [abs_lt]; constructor <;> linarith)).ne' h'
  rw [radians_neg] at hpos' ⊢
  rw [tE_neg]
  generalize tE (radians (90 - rho)) (hourAngle (phi / 15 - dl)) = t at *
  generalize tLen (radians da) (radians (90 - rho)) (hourAngle (phi / 15 - dl)) = p at *
  generalize tLen (radians da) (-radians (90 - rho)) (hourAngle (phi / 15 - dl)) = q at *
  have : (0 * tN (radians da) (radians (90 - rho)) (hourAngle (phi / 15 - dl)) + e * t) / p *
      -((0 * tN (radians da) (-radians (90 - rho)) (hourAngle (phi / 15 - dl)) + e * t) / q) =
      -((e * t) ^ 2 / (p * q)) := by
    field_simp
    ring
  rw [this, neg_lt_zero]
  have : e * t ≠ 0 := mul_ne_zero he hw
  positivity

/-- C71 is false for every southern boundary object: an eastward vector off the meridian of the circle's centre gets
the wrong sign, because the pole is placed in the northern hemisphere.  The circle's centre is at latitude
`-(90 - rho)`; the component to the north of the boundary coordinates is the one away from it. -/
theorem C71_southern_refuted (conv : VD → Arr Tod → ℤ → Except PyErr VD) (b : Bnd) (_ : b.hem = -1) (v : VD) (m : ℕ)
    (ys : ℕ → Pt) (hm : 0 < m)
    (h : Holds v m ys) (hg : ∀ i, i < m → (ys i).Good b) (hr : InRange b m ys) (hl : Located b v m ys)
    (hs : (∀ i, i < m → 0 < (ys i).rho) ∨ v.vectN.shape ≠ none ∨ m = 1) (hf : v.scaleFunc = none)
    (i : ℕ) (hi : i < m) (hn : (ys i).n = 0) (hrho : 0 < (ys i).rho) :
    ∃ w rec' x, setOcb conv b none v = .ok (w, rec') ∧ (w.ocbN = .one (some x) ∨ ∃ l, w.ocbN = .many l ∧ l[i]? = some (some x)) ∧
      x * (-towards (place (ys i).da (ys i).dl) (place (-(90 - (ys i).rho)) ((ys i).phi / 15))
          (horiz (ys i).da (ys i).dl (ys i).n (ys i).e)) < 0 := by
  obtain ⟨w, rec', u, h1, h2, -⟩ := C69_geometry conv b v m ys hm h hg hr hl hs hf
  refine ⟨w, rec', (ys i).north, h1, ?_, ?_⟩
  · rcases h2 with ⟨y, hy, hy'⟩ | h2
    · left; rw [hy, ← hy' i hi]; rfl
    · right; exact ⟨_, h2, by simp [hi, Pt.north]⟩
  have hG := hg i hi
  generalize ys i = y at *
  have he : y.e ≠ 0 := fun hc => hG.vec ⟨hn, hc⟩
  unfold Pt.north
  rw [hn]
  exact mirror_sign hG.lat hrho hG.rho90 hG.off he

/-- A southern object: the example of C69 with hemisphere -1 and eastward vectors. -/
noncomputable def southPt : ℕ → Pt := fun i => { exPt i with da := -(exPt i).da, n := 0, e := 1 }

/-- The hypotheses are met. -/
example (t : Tod) (i : ℕ) (hi : i < 2) : (southPt i).Good { exBnd t with hem := -1 } ∧ (southPt i).n = 0 ∧
    0 < (southPt i).rho := by
  obtain ⟨⟨a, b, c, d, e, f, g⟩, h, -⟩ := exPt_good t i hi
  refine ⟨⟨⟨a, b, c, d, ?_, f, g⟩, h, ?_⟩, rfl, ?_⟩
  · show |-(exPt i).da| < 90
    rw [abs_neg]; exact e
  · show ¬ ((0 : ℝ) = 0 ∧ (1 : ℝ) = 0)
    norm_num
  · have hh : i = 0 ∨ i = 1 := by omega
    rcases hh with rfl | rfl <;> norm_num [southPt, exPt]

/-! ## C72 -/

/-- C72 is false: with a single index and the cursor past the last record, where a loop over the good records leaves
it, `set_ocb` raises IndexError although the index it is asked for exists. -/
theorem C72_cursor_refuted (conv : VD → Arr Tod → ℤ → Except PyErr VD) (b : Bnd) (f : Option (F → F → F → F)) (v : VD)
    (k : ℤ) (hk : v.ocbInd = .one k) (hc : pyIdx b.dtime b.recInd = .error .indexError) :
    setOcb conv b f v = .error .indexError := by
  unfold setOcb timesOf
  rw [hk]
  simp only [hc]
  rfl

/-- Two records, the cursor past both, index 0. -/
example (t : Tod) : pyIdx ({ exBnd t with recInd := 2 } : Bnd).dtime 2 = .error .indexError ∧
    pyIdx ({ exBnd t with recInd := 2 } : Bnd).dtime 0 = .ok t := ⟨rfl, rfl⟩

theorem normalLoop_cursor (b : Bnd) (r : ℤ) (l : List ℤ) : ∀ (v : VD) (i : ℕ),
    normalLoop { b with recInd := r } v i l = normalLoop b v i l := by
  induction l with
  | nil => intro v i; rfl
  | cons k ks ih =>
    intro v i
    rw [normalLoop, normalLoop]
    simp only [ih]

/-- C72 as far as it holds: for vectors in magnetic coordinates the result does not depend on where the cursor is, as
long as it is on a record.  Missing: cursors off the records (refuted above) and vectors in other coordinates, which
are converted with the time of the record under the cursor (`C72_geographic_refuted`). -/
theorem C72_cursor_partial (conv : VD → Arr Tod → ℤ → Except PyErr VD) (b : Bnd) (f : Option (F → F → F → F)) (v : VD)
    (r : ℤ) (hv : v.vectCoord = "magnetic") (t t' : Tod) (h1 : pyIdx b.dtime b.recInd = .ok t)
    (h2 : pyIdx b.dtime r = .ok t') :
    (setOcb conv { b with recInd := r } f v).map Prod.fst = (setOcb conv b f v).map Prod.fst := by
  have hfill : (fillCoords { b with recInd := r } v).map Prod.fst = (fillCoords b v).map Prod.fst := by
    unfold fillCoords
    split_ifs
    · cases v.ocbInd with
      | one k => rfl
      | many ks =>
        simp only [normalLoop_cursor, bind, Except.bind]
        cases normalLoop b v 0 ks <;> rfl
    · rfl
  unfold setOcb
  have ht : (timesOf { b with recInd := r } v).map (fun _ => ()) = (timesOf b v).map fun _ => () := by
    unfold timesOf
    cases v.ocbInd with
    | one k => simp only [h1, h2]; rfl
    | many ks => rfl
  simp only [bind, Except.bind, hv, ne_eq, not_true_eq_false, if_false]
  have hp : ∀ w, poleStep { b with recInd := r } w = poleStep b w := fun _ => rfl
  simp only [hp]
  generalize timesOf { b with recInd := r } v = q at *
  generalize timesOf b v = q' at *
  cases q with
  | error e =>
    cases q' with
    | error e' => simp only [Except.map] at ht ⊢; exact congrArg _ (Except.error.inj ht)
    | ok x => simp [Except.map] at ht
  | ok x =>
    cases q' with
    | error e' => simp [Except.map] at ht
    | ok x' =>
      simp only
      generalize fillCoords { b with recInd := r } v = p at *
      generalize fillCoords b v = p' at *
      cases p with
      | error e =>
        cases p' with
        | error e' => simp only [Except.map] at hfill ⊢; exact congrArg _ (Except.error.inj hfill)
        | ok x => simp [Except.map] at hfill
      | ok x =>
        cases p' with
        | error e' => simp [Except.map] at hfill
        | ok x' =>
          obtain ⟨w, c⟩ := x
          obtain ⟨w', c'⟩ := x'
          have : w = w' := by simpa [Except.map] using hfill
          subst this
          simp only
          split_ifs
          · rfl
          · cases poleStep b w with
            | error e => rfl
            | ok y =>
              simp only
              cases rotateStep f y <;> rfl

/-- The cursor on either of two records. -/
example (t : Tod) : pyIdx (exBnd t).dtime (exBnd t).recInd = .ok t ∧ pyIdx (exBnd t).dtime 1 = .ok t := ⟨rfl, rfl⟩

/-! ## C73 -/

theorem fill_names (b : Bnd) (v v' : VD) (c : ℤ) (h : fillCoords b v = .ok (v', c)) :
    v'.locCoord = v.locCoord ∧ v'.ocbN = v.ocbN ∧ v'.ocbE = v.ocbE ∧ v'.ocbZ = v.ocbZ ∧ v'.ocbMag = v.ocbMag := by
  have loop : ∀ (l : List ℤ) (w w' : VD) (i : ℕ), normalLoop b w i l = .ok w' →
      w'.locCoord = w.locCoord ∧ w'.ocbN = w.ocbN ∧ w'.ocbE = w.ocbE ∧ w'.ocbZ = w.ocbZ ∧ w'.ocbMag = w.ocbMag := by
    intro l
    induction l with
    | nil => intro w w' i h; rw [normalLoop] at h; cases h; exact ⟨rfl, rfl, rfl, rfl, rfl⟩
    | cons k ks ih =>
      intro w w' i h
      rw [normalLoop] at h
      simp only [bind, Except.bind] at h
      split at h
      · cases h
      split at h
      · cases h
      split at h
      · cases h
      split at h
      · cases h
      have := ih _ _ _ h
      exact this
  unfold fillCoords at h
  split_ifs at h
  · split at h
    · simp only [bind, Except.bind, pure, Except.pure] at h
      split at h
      · cases h
      · cases h; exact ⟨rfl, rfl, rfl, rfl, rfl⟩
    · simp only [bind, Except.bind, pure, Except.pure] at h
      split at h
      · cases h
      · rename_i w hw
        cases h
        exact loop _ _ _ _ hw
  · cases h; exact ⟨rfl, rfl, rfl, rfl, rfl⟩

/-- C73 is false: for a magnetic vector at a location given in geodetic or geocentric coordinates, which the
constructor accepts, `set_ocb` either raises or returns without having calculated anything, for every boundary. -/
theorem C73_geographic_location_refuted (conv : VD → Arr Tod → ℤ → Except PyErr VD) (b : Bnd)
    (f : Option (F → F → F → F)) (v w : VD) (c : ℤ) (hl : v.locCoord ≠ "magnetic") (hv : v.vectCoord = "magnetic")
    (h : setOcb conv b f v = .ok (w, c)) :
    w.ocbN = v.ocbN ∧ w.ocbE = v.ocbE ∧ w.ocbZ = v.ocbZ ∧ w.ocbMag = v.ocbMag := by
  unfold setOcb at h
  simp only [bind, Except.bind, pure, Except.pure, hv, ne_eq, not_true_eq_false, if_false] at h
  split at h
  · cases h
  split at h
  · cases h
  · rename_i p hp
    obtain ⟨w', c'⟩ := p
    obtain ⟨n1, n2⟩ := fill_names b v w' c' hp
    simp only at h
    split_ifs at h
    · cases h; exact n2
    · split at h
      · cases h
      · rename_i y hy
        have hloc : y.locCoord = w'.locCoord := by
          unfold poleStep at hy
          simp only [bind, Except.bind, pure, Except.pure] at hy
          repeat' split at hy
          all_goals first
            | (cases hy; rfl)
            | cases hy
        have : rotateStep f y = .error .valueError := by
          unfold rotateStep calcPoleAngle
          rw [if_pos (by rw [hloc, n1]; exact hl)]
          rfl
        rw [this] at h
        cases h

/-- Such an object is accepted by the constructor. -/
example : ∃ v, construct id (oneArgs 0 0 75 3 50 86 5 "geodetic" "magnetic") = .ok v ∧ v.locCoord ≠ "magnetic" ∧
    v.vectCoord = "magnetic" := by
  obtain ⟨v, hv, -⟩ := oneArgs_ok id rfl 0 0 75 3 50 86 5
  refine ⟨_, (C50_construct id rfl (oneArgs 0 0 75 3 50 86 5 "geodetic" "magnetic") v hv).1
    (by simp [Compatible, oneArgs]), ?_, rfl⟩
  simp [oneArgs]

/-! ## C74 -/

theorem filter_shorter {α : Type*} (l : List α) (p : α → Bool) (x : α) (hx : x ∈ l) (hp : p x = false) :
    (l.filter p).length < l.length :=
  List.length_filter_lt_length_iff_exists.2 ⟨x, hx, by simp [hp]⟩

theorem on_meridian {y : Pt} (hon : ∃ k : ℤ, y.phi / 15 = y.dl + 12 * k) : ¬ y.vin.IsNorm := by
  obtain ⟨k, hk⟩ := hon
  obtain ⟨d, hd⟩ := fixVal_congr (y.phi / 15) 0 24 24 (by norm_num : (0 : ℝ) < 24)
  have h' : Real.sin (hourAngle (y.pl - y.dl)) = 0 := by
    rw [sin_hour_zero]
    exact ⟨k + 2 * d, by unfold Pt.pl; rw [hd, hk]; push_cast; ring⟩
  have ha : y.angle = if |90 - y.rho| < |y.da| then 180 else 0 := by
    unfold Pt.angle
    rw [if_pos h', (poleAngle_on h').1]
    rfl
  intro hc
  apply hc
  right
  show some y.angle = some 0 ∨ some y.angle = some 180
  rw [ha]
  split_ifs
  · right; rfl
  · left; rfl

theorem adjust_dropped {v : VD} {m : ℕ} {ys : ℕ → Pt} (h : HasQuads v m ys) (hn : v.vectN.shape = none)
    (he : v.vectE.shape = none) (hz : v.vectZ.shape = none) (hp : v.aacgmMlt.shape ≠ none) (j : ℕ) (hj : j < m)
    (hN : (ys j).vin.IsNorm) (i : ℕ) (hi : i < m) (hN' : ¬ (ys i).vin.IsNorm) :
    ∃ l, adjust v = .ok (.many l) ∧ l.length < m := by
  classical
  obtain ⟨d, d1, d2, d3⟩ := h.lt.zip h.lat
  obtain ⟨p, p1, p2, p3⟩ := h.poleLt.zip h.poleLat
  obtain ⟨dp, a1, a2, a3⟩ := d2.zip p2
  obtain ⟨aq, q1, q2, -⟩ := h.ang.zip h.pq
  obtain ⟨ne, n1, n2, n3⟩ := h.n.zip h.e
  obtain ⟨nez, z1, z2, z3⟩ := n2.zip h.z
  obtain ⟨vec, v1, v2, -⟩ := z2.zip h.vq
  obtain ⟨av, w1, w2, -⟩ := q2.zip v2
  obtain ⟨all, l1, l2, l3⟩ := a2.zip w2
  have hall : Reads (all.map mkIn) m fun i => (ys i).vin := l2.map mkIn
  have hshape : (all.map mkIn).shape ≠ none := fun hc =>
    hp (p3.1 (a3.1 (l3.1 (map_shape' _ _ hc)).1).2).1
  have hone : nez.shape = none := z3.2 ⟨n3.2 ⟨hn, he⟩, hz⟩
  unfold adjust
  rw [d1]
  simp only [bind, Except.bind]
  rw [p1]
  simp only
  rw [a1]
  simp only
  rw [q1]
  simp only
  rw [n1]
  simp only
  rw [z1]
  simp only
  rw [v1]
  simp only
  rw [w1]
  simp only
  rw [l1]
  simp only
  rcases hall with ⟨x, hx, -⟩ | hx
  · rw [hx] at hshape; exact absurd rfl hshape
  rw [hx]
  cases nez with
  | many l => exact absurd hone (by simp [Arr.shape])
  | one c =>
    set xs := (List.range m).map fun i => (ys i).vin with hxs
    have hjm : (ys j).vin ∈ xs := List.mem_map.2 ⟨j, List.mem_range.2 hj, rfl⟩
    have him : (ys i).vin ∈ xs := List.mem_map.2 ⟨i, List.mem_range.2 hi, rfl⟩
    have hpl : ∀ x ∈ xs, Plain x := by
      intro x hx
      obtain ⟨i, hi, rfl⟩ := List.mem_map.1 hx
      exact (ys i).plain
    have hmany : adjustMany xs = .ok ((xs.filter fun x => decide x.IsNorm).map fun x => normOut false x.pq x.vq x) := by
      unfold adjustMany
      rw [if_pos (List.any_eq_true.2 ⟨_, hjm, by simp [hN]⟩)]
      rw [any_false (l := xs) (p := fun x : VIn => decide (x.vq = 0)) fun y hy => by simp [quad_ne_zero (hpl y hy).whole.quads.2],
        any_false (l := xs) (p := fun x : VIn => decide (x.IsNorm ∧ x.pq = 0)) fun y hy => by
          simp [quad_ne_zero (hpl y hy).whole.quads.1]]
      simp only [Bool.false_eq_true, if_false]
      rw [if_neg (by rw [not_not]; exact List.any_eq_true.2 ⟨_, hjm, (hpl _ hjm).whole.quads.1⟩),
        if_neg (by rw [not_not]; exact List.any_eq_true.2 ⟨_, hjm, (hpl _ hjm).whole.quads.2⟩)]
    refine ⟨(xs.filter fun x => decide x.IsNorm).map fun x => normOut false x.pq x.vq x, ?_, ?_⟩
    · show (adjustMany xs).map Arr.many = _
      rw [hmany]
      rfl
    · rw [List.length_map]
      have := filter_shorter xs (fun x => decide x.IsNorm) _ him (by simp [hN'])
      simpa [hxs] using this

/-- C74 is false: a single vector with an array of indices loses the entries whose circle is centred on the meridian
of the vector, as soon as another circle is not. -/
theorem C74_dropped_refuted (conv : VD → Arr Tod → ℤ → Except PyErr VD) (b : Bnd) (v : VD) (m : ℕ) (ys : ℕ → Pt)
    (h : Holds v m ys) (hb : ∀ i, i < m → (ys i).Base b) (hr : InRange b m ys) (hl : Located b v m ys)
    (hf : v.scaleFunc = none) (n e z : F) (hn : v.vectN = .one n) (he : v.vectE = .one e) (hz : v.vectZ = .one z)
    (ks : List ℤ) (hks : v.ocbInd = .many ks) (i j : ℕ) (hi : i < m) (hj : j < m)
    (hon : ∃ k : ℤ, (ys i).phi / 15 = (ys i).dl + 12 * k) (hoff : (ys j).Good b) (hrho : 0 < (ys j).rho) :
    ∃ w rec' l, setOcb conv b none v = .ok (w, rec') ∧ w.ocbN = .many l ∧ l.length < ks.length := by
  have hm : 0 < m := by omega
  have hkl : ks.length = m := by
    rcases h.ocbInd with ⟨x, hx, -⟩ | hx
    · rw [hks] at hx; cases hx
    · rw [hks] at hx; rw [Arr.many.inj hx]; simp
  obtain ⟨v1, rec', f1, f2, f3, f4, f5, f6, f7⟩ := fill_ok hm h hl
  obtain ⟨v2, p1, p2, p3, p4, p5, p6, -⟩ := poleStep_ok hm f2 hb f3.rc
  obtain ⟨v3, r1, r2, r3, r4, r5, r6, r7, r8⟩ := rotateStep_start hm p2 hb none
  have hf3 : v3.scaleFunc = none := by rw [r3, p3, f7, hf]
  have hpick : pickScale none v3 = v3 := by
    unfold pickScale
    rw [hf3]
    cases v3; cases hf3; rfl
  rw [hpick] at r1
  obtain ⟨l, l1, l2⟩ := adjust_dropped r2 (by rw [r4.1, p4.1, f6.1, hn]; rfl) (by rw [r4.2.1, p4.2.1, f6.2.1, he]; rfl)
    (by rw [r4.2.2, p4.2.2, f6.2.2, hz]; rfl) (by
      rw [r8]; intro hc; have := p6 hc; rw [f5, hks] at this; exact absurd this (by simp [Arr.shape]))
    j hj (hoff.norm hrho) i hi (on_meridian hon)
  refine ⟨{ v3 with
    ocbN := .many (l.map (·.1)), ocbE := .many (l.map (·.2.1)), ocbZ := .many (l.map (·.2.2))
    ocbMag := .many ((((l.map (·.1)).zip (l.map (·.2.1))).zip (l.map (·.2.2))).map mag3) }, rec', _, ?_, rfl, ?_⟩
  · rw [after_fill hm h hr conv none f1 f3, p1]
    show ((rotateStep none v2).map fun w => (w, rec')) = _
    rw [r1]
    unfold scaleVector
    rw [if_neg (by rw [r2.lat.notNan hm, r2.lt.notNan hm]; simp), if_neg (by rw [r2.poleLt.notNan hm]; simp),
      if_neg (by rw [r2.ang.notNan hm]; simp), l1, hf3]
    simp only [bind, Except.bind, Arr.map]
    rw [magArr_many _ _ _ (by simp) (by simp)]
    rfl
  · rw [List.length_map, hkl]; exact l2

/-- A single vector at 12 h and the two circles of the example, the first of which is centred at 12 h. -/
noncomputable def noonPt : ℕ → Pt := fun i => { exPt i with da := 75, dl := 12, n := 50, e := 86, z := 5 }

/-- The hypotheses are met. -/
example (t : Tod) : (∀ i, i < 2 → (noonPt i).Base (exBnd t)) ∧ (∃ k : ℤ, (noonPt 0).phi / 15 = (noonPt 0).dl + 12 * k) ∧
    (noonPt 1).Good (exBnd t) ∧ 0 < (noonPt 1).rho := by
  have hb : ∀ i, i < 2 → (noonPt i).Base (exBnd t) := by
    intro i hi
    obtain ⟨⟨a, b, c, d, e, f, g⟩, -⟩ := exPt_good t i hi
    refine ⟨a, b, c, d, ?_, f, g⟩
    norm_num [noonPt]
  refine ⟨hb, ⟨0, by norm_num [noonPt, exPt]⟩, ⟨hb 1 (by norm_num), fun k hk => ?_, by norm_num [noonPt]⟩,
    by norm_num [noonPt, exPt]⟩
  exact not_twelfth (x := 6) (by norm_num) (by norm_num) (k + 1) (by
    simp only [noonPt, exPt] at hk; push_cast; linarith)

/-- C74 as far as it holds, for components given as arrays: an array comes out with one entry per vector.  Missing:
single vectors (refuted above). -/
theorem C74_arrays_partial (v w : VD) (xs : List VIn) (h : Row v xs) (hf : v.scaleFunc = none)
    (hs : scaleVector v = .ok w) : ∃ l, w.ocbN = .many l ∧ l.length = xs.length := by
  have hlen : ∀ os, adjustArr xs = .ok os → os.length = xs.length := by
    intro os ho
    unfold adjustArr at ho
    simp only at ho
    split_ifs at ho <;> · cases ho; simp
  unfold scaleVector at hs
  rw [adjust_row h, hf] at hs
  split_ifs at hs
  cases ho : adjustArr xs with
  | error e => rw [ho] at hs; cases hs
  | ok os =>
    rw [ho] at hs
    simp only [bind, Except.bind, pure, Except.pure, Except.map, Arr.map] at hs
    split at hs
    · cases hs
    · cases hs
      exact ⟨_, rfl, by rw [List.length_map]; exact hlen os ho⟩

/-! ## C75 -/

/-- C75 is false: with a single boundary index a boundary latitude array of any length is accepted. -/
theorem C75_boundary_shape_refuted (lower : String → String) (hl : lower "magnetic" = "magnetic") (dat ocb : ℤ)
    (lat lt n e z : ℝ) (l : List F) : ∃ v,
      construct lower { oneArgs dat ocb lat lt n e z "magnetic" "magnetic" with ocbLat := .many l } = .ok v ∧
      v.ocbInd.shape = none ∧ v.datInd.shape = none ∧ v.ocbLat.shape = some l.length ∧ v.ocbMlt.shape = none := by
  rw [construct_eq]
  have hb : before { oneArgs dat ocb lat lt n e z "magnetic" "magnetic" with ocbLat := .many l } = .ok _ := rfl
  rw [hb]
  simp only [Except.bind, oneArgs, hl]
  rw [(C50_test "magnetic" "magnetic").1.2 (by simp [Compatible])]
  exact ⟨_, rfl, rfl, rfl, rfl, rfl⟩

theorem spread_array {α : Type*} (ind : Arr ℤ) (x : Arr α) (h : ind.shape ≠ none) : (spread ind x).shape ≠ none := by
  cases ind with
  | one k => exact absurd rfl h
  | many l =>
    cases x with
    | one a => simp [spread, Arr.full, Arr.shape]
    | many m => simp [spread, Arr.shape]

/-- C75 as far as it holds: the components have the shape of the data index; if the boundary index is an array, the
boundary coordinates have its length, and so has the data index if it is an array.  Missing: boundary coordinates for a
single boundary index (refuted above). -/
theorem C75_shapes_partial (lower : String → String) (a : Args) (v : VD) (h : construct lower a = .ok v) :
    (∀ x ∈ [v.vectN, v.vectE, v.vectZ], x.shape = v.datInd.shape) ∧
    (v.ocbInd.shape ≠ none → (∀ x ∈ [v.ocbLat, v.ocbMlt, v.rCorr], x.shape = v.ocbInd.shape) ∧
      (v.datInd.shape = none ∨ v.datInd.shape = v.ocbInd.shape)) := by
  unfold construct at h
  simp only [bind, Except.bind] at h
  split at h
  · cases h
  rename_i v0 hv0
  split at h
  · cases h
  unfold finish at h
  obtain ⟨-, s2, s3, s4⟩ := testVectorShape_spec v0
  rcases hq : testVectorShape v0 with ⟨w, e | u⟩
  · rw [hq] at h; cases h
  rw [hq] at h s2 s3 s4
  obtain ⟨s4, s5⟩ := s4 rfl
  simp only at h s2 s3 s4 s5
  rcases hq' : testBoundShape (assignBound a w) with ⟨w', e | u'⟩
  · rw [hq'] at h; cases h
  rw [hq'] at h
  cases h
  obtain ⟨t, t1, -, t3⟩ := testBoundShape_spec (assignBound a w)
  rw [hq'] at t1 t3
  simp only at t1 t3
  have hval : w' = { assignBound a w with vshape := t } := t1
  refine ⟨?_, fun hne => ?_⟩
  · subst hval
    intro x hx
    have := s5 x hx
    rw [this, ← s2]
    rfl
  · have hne' : (assignBound a w).ocbInd.shape ≠ none := by subst hval; exact hne
    obtain ⟨e1, e2⟩ := t3 trivial hne'
    have hsp : ∀ x ∈ [(assignBound a w).ocbLat, (assignBound a w).ocbMlt, (assignBound a w).rCorr],
        x.shape ≠ none := by
      intro x hx
      have hw : w.ocbInd.shape ≠ none := hne'
      simp only [List.mem_cons, List.not_mem_nil, or_false] at hx
      rcases hx with rfl | rfl | rfl <;> exact spread_array _ _ hw
    have hnot : ¬ ((distinct [(assignBound a w).ocbLat.shape, (assignBound a w).ocbMlt.shape,
        (assignBound a w).rCorr.shape]).length > 2 ∨ ((distinct [(assignBound a w).ocbLat.shape,
        (assignBound a w).ocbMlt.shape, (assignBound a w).rCorr.shape]).length = 2 ∧
        none ∉ distinct [(assignBound a w).ocbLat.shape, (assignBound a w).ocbMlt.shape, (assignBound a w).rCorr.shape])) := by
      intro hc
      unfold testBoundShape at hq'
      simp only at hq'
      rw [if_pos (.inr hc)] at hq'
      cases hq'
    have hvs : (assignBound a w).datInd.shape ≠ none → (assignBound a w).datInd.shape = (assignBound a w).ocbInd.shape := by
      intro hd
      unfold testBoundShape at hq'
      simp only at hq'
      split at hq'
      · cases hq'
      split at hq'
      · cases hq'
      rename_i c4
      have c3 := not_not.1 c4
      have hvv : (assignBound a w).vshape = (assignBound a w).datInd.shape := by
        show w.vshape = w.datInd.shape
        rw [s4, s2]
      rw [← hvv, ← c3]
      exact e1.symm
    have hcases := distinct_cases _ hnot (by simp)
    have hmem := distinct_mem [(assignBound a w).ocbLat.shape, (assignBound a w).ocbMlt.shape, (assignBound a w).rCorr.shape]
    have hall : ∀ x ∈ [(assignBound a w).ocbLat, (assignBound a w).ocbMlt, (assignBound a w).rCorr],
        x.shape = (assignBound a w).ocbInd.shape := by
      have hnn : none ∉ distinct [(assignBound a w).ocbLat.shape, (assignBound a w).ocbMlt.shape,
          (assignBound a w).rCorr.shape] := by
        rw [hmem]
        intro hc
        simp only [List.mem_cons, List.not_mem_nil, or_false] at hc
        rcases hc with hc | hc | hc
        · exact hsp _ (by simp) hc.symm
        · exact hsp (assignBound a w).ocbMlt (by simp) hc.symm
        · exact hsp (assignBound a w).rCorr (by simp) hc.symm
      obtain ⟨s, hs⟩ | ⟨n, hs | hs⟩ := hcases
      · have hsn : s ≠ none := by rintro rfl; exact hnn (by rw [hs]; simp)
        have hmax : (assignBound a w).ocbInd.shape = s := by
          rw [e1, hs]
          cases s with
          | none => exact absurd rfl hsn
          | some n => exact (maxShape_pair n).1
        intro x hx
        have : x.shape ∈ distinct [(assignBound a w).ocbLat.shape, (assignBound a w).ocbMlt.shape,
            (assignBound a w).rCorr.shape] := by
          rw [hmem]
          simp only [List.mem_cons, List.not_mem_nil, or_false] at hx ⊢
          rcases hx with rfl | rfl | rfl <;> simp
        rw [hs] at this
        rw [hmax]
        simpa using this
      · exact absurd (by rw [hs]; simp) hnn
      · exact absurd (by rw [hs]; simp) hnn
    subst hval
    refine ⟨hall, ?_⟩
    by_cases hd : (assignBound a w).datInd.shape = none
    · exact .inl hd
    · exact .inr (hvs hd)

/-- The values that an argument stands for: a single value given with an index array is meant for each of its entries,
everything else is meant as it is. -/
structure Held {α : Type*} (ind : Arr ℤ) (arg got : Arr α) : Prop where
  each : ∀ x n, arg = .one x → ind.shape = some n → got = .many (List.replicate n x)
  alone : ∀ x, arg = .one x → ind.shape = none → got = .one x
  array : ∀ l, arg = .many l → got = .many l

theorem held_spread {α : Type*} (ind : Arr ℤ) (arg : Arr α) : Held ind arg (spread ind arg) := by
  refine ⟨?_, ?_, ?_⟩
  · rintro x n rfl h
    cases ind with
    | one k => simp [Arr.shape] at h
    | many l => simp only [Arr.shape, Option.some.injEq] at h; subst h; rfl
  · rintro x rfl h
    cases ind with
    | one k => rfl
    | many l => simp [Arr.shape] at h
  · rintro l rfl
    cases ind <;> rfl

theorem held_grown {α : Type*} {ind : Arr ℤ} {arg got : Arr α} (h : got = arg ∨ ∃ x s, arg = .one x ∧ got = .full s x)
    (hs : got.shape = ind.shape) : Held ind arg got := by
  refine ⟨?_, ?_, ?_⟩
  · rintro x n rfl hn
    rw [hn] at hs
    rcases h with rfl | ⟨y, s, e, rfl⟩
    · simp [Arr.shape] at hs
    · cases e
      cases s with
      | none => simp [Arr.full, Arr.shape] at hs
      | some k => simp only [Arr.full, Arr.shape, List.length_replicate, Option.some.injEq] at hs; subst hs; rfl
  · rintro x rfl hn
    rw [hn] at hs
    rcases h with rfl | ⟨y, s, e, rfl⟩
    · rfl
    · cases e
      cases s with
      | none => rfl
      | some k => simp [Arr.full, Arr.shape] at hs
  · rintro l rfl
    rcases h with rfl | ⟨y, s, e, rfl⟩
    · rfl
    · cases e

/-- C75, the values: a successful construction keeps the indices and every location, component and boundary coordinate
it is given, single values spread over the index array they belong to. -/
theorem C75_values_partial (lower : String → String) (a : Args) (v : VD) (h : construct lower a = .ok v) :
    v.datInd = a.datInd ∧ v.ocbInd = a.ocbInd ∧
    Held a.datInd a.lat v.lat ∧ Held a.datInd a.lt v.lt ∧ Held a.datInd a.height v.height ∧
    Held a.datInd a.vectN v.vectN ∧ Held a.datInd a.vectE v.vectE ∧ Held a.datInd a.vectZ v.vectZ ∧
    Held a.ocbInd a.ocbLat v.ocbLat ∧ Held a.ocbInd a.ocbMlt v.ocbMlt ∧ Held a.ocbInd a.rCorr v.rCorr := by
  have hsh := (C75_shapes_partial lower a v h).1
  unfold construct at h
  simp only [bind, Except.bind] at h
  split at h
  · cases h
  rename_i v0 hv0
  have h0 : ∃ m, v0 = { initial lower a with vectMag := m } := by
    unfold setVectMag at hv0
    simp only [bind, Except.bind, pure, Except.pure] at hv0
    split at hv0
    · cases hv0
    split at hv0
    · cases hv0; exact ⟨_, rfl⟩
    · split at hv0
      · cases hv0
      · cases hv0; exact ⟨_, rfl⟩
  obtain ⟨m, rfl⟩ := h0
  split at h
  · cases h
  unfold finish at h
  rcases hq : testVectorShape { initial lower a with vectMag := m } with ⟨w, e | u⟩
  · rw [hq] at h; cases h
  rw [hq] at h
  simp only at h
  have hw : ∃ s n e z, w = { initial lower a with vectMag := m, vshape := s, vectN := n, vectE := e, vectZ := z } ∧
      (n = a.vectN ∨ ∃ x s, a.vectN = .one x ∧ n = .full s x) ∧ (e = a.vectE ∨ ∃ x s, a.vectE = .one x ∧ e = .full s x) ∧
      (z = a.vectZ ∨ ∃ x s, a.vectZ = .one x ∧ z = .full s x) := by
    unfold testVectorShape at hq
    simp only at hq
    split at hq
    · cases hq
    split at hq
    · split at hq
      · cases hq
      · cases hq
        refine ⟨_, _, _, _, rfl, ?_, ?_, ?_⟩
        · cases hx : a.vectN with
          | one x =>
            refine .inr ⟨x, ?_⟩
            apply Exists.intro
            refine ⟨rfl, ?_⟩
            simp only [initial, hx]
            rfl
          | many l => exact .inl (by simp only [initial, hx])
        · cases hx : a.vectE with
          | one x =>
            refine .inr ⟨x, ?_⟩
            apply Exists.intro
            refine ⟨rfl, ?_⟩
            simp only [initial, hx]
            rfl
          | many l => exact .inl (by simp only [initial, hx])
        · cases hx : a.vectZ with
          | one x =>
            refine .inr ⟨x, ?_⟩
            apply Exists.intro
            refine ⟨rfl, ?_⟩
            simp only [initial, hx]
            rfl
          | many l => exact .inl (by simp only [initial, hx])
    · cases hq
      exact ⟨_, _, _, _, rfl, .inl rfl, .inl rfl, .inl rfl⟩
  obtain ⟨s, n, e, z, rfl, hn, he, hz⟩ := hw
  rcases hq' : testBoundShape (assignBound a { initial lower a with
    vectMag := m, vshape := s, vectN := n, vectE := e, vectZ := z }) with ⟨w', e' | u'⟩
  · rw [hq'] at h; cases h
  rw [hq'] at h
  cases h
  obtain ⟨t, t1, -⟩ := testBoundShape_spec (assignBound a { initial lower a with
    vectMag := m, vshape := s, vectN := n, vectE := e, vectZ := z })
  rw [hq'] at t1
  simp only at t1
  subst t1
  refine ⟨rfl, rfl, held_spread _ _, held_spread _ _, held_spread _ _, held_grown hn ?_, held_grown he ?_, held_grown hz ?_,
    held_spread _ _, held_spread _ _, held_spread _ _⟩
  · exact hsh n (List.mem_cons_self ..)
  · exact hsh e (List.mem_cons_of_mem _ (List.mem_cons_self ..))
  · exact hsh z (List.mem_cons_of_mem _ (List.mem_cons_of_mem _ (List.mem_cons_self ..)))

/-! ## C77 -/

/-- The name of the geographic system used by a conversion. -/
def geoName (geoc : Bool) : String := if geoc then "geocentric" else "geodetic"

/-- The conversions are right: `pos` is the place that a latitude, local time and height mean in the named system at a
given time, and both conversions leave the place alone. -/
structure Faithful {P : Type*} (A : Aacgm) (pos : String → F → F → F → Tod → P) : Prop where
  toMag : ∀ geoc lat slt lon h t, liftF (slt2glon · t) slt = .ok lon →
    pos "magnetic" (A.g2a geoc lat lon h t).1 (A.g2a geoc lat lon h t).2 h t = pos (geoName geoc) lat slt h t
  fromMag : ∀ geoc lat mlt slt h t,
    liftF (glon2slt · t) (A.a2g geoc lat (A.mlt2lon mlt t) h t).2 = .ok slt →
    pos (geoName geoc) (A.a2g geoc lat (A.mlt2lon mlt t) h t).1 slt h t = pos "magnetic" lat mlt h t

theorem liftF_ok (f : ℝ → Except PyErr ℝ) (hf : ∀ x, ∃ y, f x = .ok y) (x : F) : ∃ y, liftF f x = .ok y := by
  cases x with
  | none => exact ⟨none, rfl⟩
  | some a => obtain ⟨y, hy⟩ := hf a; exact ⟨some y, by simp [liftF, hy, Except.map]⟩

/-- The place after the conversion of one location. -/
theorem convLoc_place {P : Type*} {A : Aacgm} {pos : String → F → F → F → Tod → P} (hA : Faithful A pos)
    (toMag geoc : Bool) (lat lt h : F) (t : Tod) : ∃ o, convLoc A toMag geoc lat lt h t = .ok o ∧
      (if toMag then pos "magnetic" o.1 o.2 h t = pos (geoName geoc) lat lt h t
        else pos (geoName geoc) o.1 o.2 h t = pos "magnetic" lat lt h t) := by
  unfold convLoc
  cases toMag with
  | true =>
    obtain ⟨lon, hlon⟩ := liftF_ok (slt2glon · t) (fun x => ⟨_, slt2glon_ok x t⟩) lt
    simp only [if_true]
    rw [hlon]
    exact ⟨_, rfl, hA.toMag geoc lat lt lon h t hlon⟩
  | false =>
    obtain ⟨slt, hslt⟩ := liftF_ok (glon2slt · t) (fun x => ⟨_, glon2slt_ok x t⟩)
      (A.a2g geoc lat (A.mlt2lon lt t) h t).2
    simp only [Bool.false_eq_true, if_false]
    rw [hslt]
    exact ⟨_, rfl, hA.fromMag geoc lat lt slt h t hslt⟩

/-- The shapes after `growLoc`. -/
theorem growLoc_ok {v : VD} {ts : Arr Tod} {m : ℕ} {las lts hs : ℕ → F} {tt : ℕ → Tod} (hla : Reads v.lat m las)
    (hlt : Reads v.lt m lts) (hh : Reads v.height m hs) (hts : Reads ts m tt) (hsh : v.lat.shape = v.lt.shape) :
    ∃ w, growLoc v ts = .ok w ∧ w.datInd = v.datInd ∧ Reads w.lat m las ∧ Reads w.lt m lts ∧ Reads w.height m hs := by
  have hlen : ∀ l : List Tod, ts = .many l → l.length = m := by
    intro l hl
    rcases hts with ⟨x, hx, -⟩ | hx
    · rw [hx] at hl; cases hl
    · rw [hx] at hl; rw [← Arr.many.inj hl]; simp
  cases ha : v.lat with
  | one a =>
    rw [ha] at hsh
    cases hb : v.lt with
    | many l => rw [hb] at hsh; cases hsh
    | one b =>
      cases ts with
      | one t =>
        refine ⟨v, ?_, rfl, hla, hlt, hh⟩
        unfold growLoc; rw [ha, hb]; rfl
      | many l =>
        have hl : (Arr.many (l.map fun _ => (0 : ℤ))).shape = some m := by simp [Arr.shape, hlen l rfl]
        refine ⟨{ v with
          lt := spread (.many (l.map fun _ => 0)) v.lt
          lat := spread (.many (l.map fun _ => 0)) v.lat
          height := spread (.many (l.map fun _ => 0)) v.height }, ?_, rfl, hla.spread _ (.inr hl), hlt.spread _ (.inr hl), hh.spread _ (.inr hl)⟩
        unfold growLoc; rw [ha, hb]; rfl
  | many a =>
    rw [ha] at hsh
    cases hb : v.lt with
    | one b => rw [hb] at hsh; cases hsh
    | many b =>
      refine ⟨v, ?_, rfl, ?_, ?_, hh⟩
      · unfold growLoc
        rw [ha, hb]
        cases ts with
        | one t => rfl
        | many l =>
          have ham : a.length = m := by
            rw [ha] at hla
            rcases hla with ⟨x, hx, -⟩ | hx
            · cases hx
            · rw [Arr.many.inj hx]; simp
          rw [hb] at hsh
          show (if some b.length = some l.length ∧ some a.length = some l.length then _ else _) = _
          rw [if_pos ⟨by rw [hlen l rfl, ← ham]; exact hsh.symm, by rw [hlen l rfl, ham]⟩]
      · exact hla
      · exact hlt

/-- What `update_loc_coords` does to the places, for one or several locations and times. -/
theorem updateLoc_place {P : Type*} {A : Aacgm} {pos : String → F → F → F → Tod → P} (hA : Faithful A pos)
    (lower : String → String) (v : VD) (ts : Arr Tod) (coord : String) (m : ℕ) (hm : 0 < m) (las lts hs : ℕ → F)
    (tt : ℕ → Tod) (hla : Reads v.lat m las) (hlt : Reads v.lt m lts) (hh : Reads v.height m hs)
    (hts : Reads ts m tt) (hsh : v.lat.shape = v.lt.shape) (hd : v.datInd.shape = none ∨ v.datInd.shape = some m)
    (hc : lower coord ≠ v.locCoord) :
    ∃ v' las' lts', updateLoc lower A v ts coord = .ok v' ∧ v'.locCoord = coord ∧ Reads v'.lat m las' ∧
      Reads v'.lt m lts' ∧ ∀ i, i < m → if lower coord = "magnetic" then
        pos "magnetic" (las' i) (lts' i) (hs i) (tt i) =
          pos (geoName (decide (v.locCoord = "geocentric"))) (las i) (lts i) (hs i) (tt i)
        else pos (geoName (decide (lower coord = "geocentric"))) (las' i) (lts' i) (hs i) (tt i) =
          pos "magnetic" (las i) (lts i) (hs i) (tt i) := by
  obtain ⟨w, g1, g2, g3, g4, g5⟩ := growLoc_ok hla hlt hh hts hsh
  set toMag := decide (lower coord = "magnetic") with htm
  set geoc := if toMag then decide (v.locCoord = "geocentric") else decide (lower coord = "geocentric") with hg
  have hp := fun i => convLoc_place hA toMag geoc (las i) (lts i) (hs i) (tt i)
  choose o ho hpos using hp
  obtain ⟨ll, a1, a2, -⟩ := g3.zip g4
  obtain ⟨llh, b1, b2, -⟩ := a2.zip g5
  obtain ⟨all, c1, c2, -⟩ := b2.zip hts
  obtain ⟨out, e1, e2, -⟩ := c2.mapE hm (fun x => convLoc A toMag geoc x.1.1.1 x.1.1.2 x.1.2 x.2) o
    fun i _ => ho i
  refine ⟨{ w with
      lat := spread w.datInd (out.map Prod.fst), lt := spread w.datInd (out.map Prod.snd), locCoord := coord },
    fun i => (o i).1, fun i => (o i).2, ?_, ?_, ?_, ?_, ?_⟩
  · unfold updateLoc
    rw [if_pos hc]
    simp only [bind, Except.bind]
    rw [g1]
    simp only [convAll, bind, Except.bind]
    rw [a1]
    simp only
    rw [b1]
    simp only
    rw [c1]
    simp only
    rw [e1]
    rfl
  · rfl
  · exact (e2.map Prod.fst).spread _ (by rw [g2]; exact hd)
  · exact (e2.map Prod.snd).spread _ (by rw [g2]; exact hd)
  · intro i hi
    have h := hpos i
    by_cases hcm : lower coord = "magnetic"
    · rw [if_pos hcm]
      simpa [htm, hg, hcm] using h
    · rw [if_neg hcm]
      simpa [htm, hg, hcm] using h

/-- C77 is false: between the two geographic systems the present coordinates are read as magnetic ones.  With right
conversions the place after the change is the one that the old numbers would mean as magnetic coordinates. -/
theorem C77_geographic_refuted {P : Type*} {A : Aacgm} {pos : String → F → F → F → Tod → P} (hA : Faithful A pos)
    (lower : String → String) (v : VD) (coord : String) (la lt h : ℝ) (t : Tod) (hla : v.lat = .one (some la))
    (hlt : v.lt = .one (some lt)) (hh : v.height = .one (some h)) (hd : v.datInd.shape = none)
    (hv : v.locCoord = "geodetic") (hc : lower coord = "geocentric")
    (hne : pos "magnetic" (some la) (some lt) (some h) t ≠ pos "geodetic" (some la) (some lt) (some h) t) :
    ∃ v' la' lt', updateLoc lower A v (.one t) coord = .ok v' ∧ v'.lat = .one la' ∧ v'.lt = .one lt' ∧
      pos (lower coord) la' lt' (some h) t = pos "magnetic" (some la) (some lt) (some h) t ∧
      pos (lower coord) la' lt' (some h) t ≠ pos v.locCoord (some la) (some lt) (some h) t := by
  obtain ⟨o, ho, hpos⟩ := convLoc_place hA false true (some la) (some lt) (some h) t
  have hgeo : geoName true = "geocentric" := rfl
  simp only [Bool.false_eq_true, if_false, hgeo] at hpos
  refine ⟨{ v with lat := .one o.1, lt := .one o.2, locCoord := coord }, o.1, o.2, ?_, rfl, rfl, by rw [hc]; exact hpos,
    by rw [hc, hpos, hv]; exact hne⟩
  unfold updateLoc
  rw [if_pos (by rw [hc, hv]; decide)]
  have hgrow : growLoc v (.one t) = .ok v := by unfold growLoc; rw [hla, hlt]; rfl
  simp only [bind, Except.bind]
  rw [hgrow]
  simp only [convAll, hla, hlt, hh, hc, bind, Except.bind, pure, Except.pure, Arr.zip, Arr.mapE]
  rw [show decide (("geocentric" : String) = "magnetic") = false by decide]
  simp only [Bool.false_eq_true, if_false, decide_true]
  rw [ho]
  cases hdi : v.datInd with
  | many l => rw [hdi] at hd; cases hd
  | one k => rfl

/-- C77 as far as it holds: if the old or the new system is magnetic, every location is still at the same place.
Missing: changes between the geographic systems (refuted above). -/
theorem C77_place_partial {P : Type*} {A : Aacgm} {pos : String → F → F → F → Tod → P} (hA : Faithful A pos)
    (lower : String → String) (v : VD) (ts : Arr Tod) (coord : String) (m : ℕ) (hm : 0 < m) (las lts hs : ℕ → F)
    (tt : ℕ → Tod) (hla : Reads v.lat m las) (hlt : Reads v.lt m lts) (hh : Reads v.height m hs)
    (hts : Reads ts m tt) (hsh : v.lat.shape = v.lt.shape) (hd : v.datInd.shape = none ∨ v.datInd.shape = some m)
    (hv : v.locCoord ∈ ["magnetic", "geocentric", "geodetic"])
    (hc : lower coord ∈ ["magnetic", "geocentric", "geodetic"])
    (hmag : v.locCoord = "magnetic" ∨ lower coord = "magnetic") :
    ∃ v' las' lts', updateLoc lower A v ts coord = .ok v' ∧ (v'.locCoord = coord ∨ v'.locCoord = lower coord) ∧ Reads v'.lat m las' ∧
      Reads v'.lt m lts' ∧ ∀ i, i < m → pos (lower coord) (las' i) (lts' i) (hs i) (tt i) =
        pos v.locCoord (las i) (lts i) (hs i) (tt i) := by
  by_cases hcc : lower coord = v.locCoord
  · refine ⟨v, las, lts, ?_, by rw [hcc]; exact .inr rfl, hla, hlt, fun i hi => by rw [hcc]⟩
    unfold updateLoc
    rw [if_neg (by simpa using hcc)]
  · obtain ⟨v', las', lts', h1, h2, h3, h4, h5⟩ := updateLoc_place hA lower v ts coord m hm las lts hs tt hla hlt hh hts
      hsh hd hcc
    refine ⟨v', las', lts', h1, .inl h2, h3, h4, fun i hi => ?_⟩
    have := h5 i hi
    by_cases hcm : lower coord = "magnetic"
    · rw [if_pos hcm] at this
      rw [hcm, this]
      simp only [List.mem_cons, List.not_mem_nil, or_false] at hv
      rcases hv with hv | hv | hv
      · exact absurd (hcm.trans hv.symm) hcc
      · rw [hv]; rfl
      · rw [hv]; rfl
    · rw [if_neg hcm] at this
      rw [hmag.resolve_right hcm, ← this]
      simp only [List.mem_cons, List.not_mem_nil, or_false] at hc
      rcases hc with hc | hc | hc
      · exact absurd hc hcm
      · rw [hc]; rfl
      · rw [hc]; rfl

/-- Conversions in a world where the magnetic latitude is the negative of the geographic one are right for the
latitude, and the two systems differ off the equator. -/
example : Faithful (P := F) { g2a := fun _ lat _ _ _ => (lat.map Neg.neg, some 0)
                              a2g := fun _ lat _ _ _ => (lat.map Neg.neg, some 0), mlt2lon := fun x _ => x }
    (fun s lat _ _ _ => if s = "magnetic" then lat.map Neg.neg else lat) := by
  have hg : ∀ b, ¬ geoName b = "magnetic" := by decide
  constructor
  · intro geoc lat slt lon h t _
    cases lat <;> simp [hg]
  · intro geoc lat mlt slt h t _
    simp [hg]

end Ocb.Scale
