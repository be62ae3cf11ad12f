import Verif.Lemmas.Coord

/-!
# Properties C24-C29: geometry of the single-boundary transforms

Vocabulary (`Verif.Spec.Coord`): `distCentre B lat mlt` is the planar distance of a location from the boundary centre by
the law of cosines, `SameHour` is equality of local times up to whole days, `Rec.Valid` is what the constructor
guarantees, `InHem hem lat` says that the latitude has the sign of the hemisphere.
-/

set_option autoImplicit false

namespace Ocb.Coord

open Real

/-- A record used in the examples: centre 5 degrees from the pole at 6 MLT, radius 16, reference 74, no correction. -/
noncomputable def exRec : Rec := ⟨90, 5, 16, fun _ => 0, 1, 74⟩

theorem exRec_valid : exRec.Valid :=
  ⟨.inl rfl, by norm_num [exRec], by rw [abs_lt]; constructor <;> norm_num [exRec]⟩

/-! ### C24 -/

/-- C24: `normal_coord` is a scaling about the centre: the OCB colatitude is the distance from the centre times
(90 - |reference|) / corrected radius. -/
theorem C24_colatitude (B : Rec) (hB : B.Valid) (lat mlt : ℝ) (hr : 0 < B.r + B.rf mlt) :
    ∃ L M, normalPt B lat mlt = .ok (L, M, B.rf mlt) ∧
      colat B.hem L = distCentre B lat mlt * (90 - |B.blat|) / (B.r + B.rf mlt) := by
  refine ⟨_, _, normalPt_ok B lat mlt, ?_⟩
  rw [colat_hem hB, norm_n, Rec.rad, abs_of_pos (div_pos (by linarith [hB.pole]) hr)]
  ring

/-- C24: the boundary circle goes to the reference latitude, its inside strictly poleward, its outside strictly
equatorward, and exactly the centre goes to the pole. -/
theorem C24_boundary_circle (B : Rec) (hB : B.Valid) (lat mlt : ℝ) (hr : 0 < B.r + B.rf mlt) :
    ∃ L M, normalPt B lat mlt = .ok (L, M, B.rf mlt) ∧
      (distCentre B lat mlt = B.r + B.rf mlt ↔ L = B.blat) ∧
      (distCentre B lat mlt < B.r + B.rf mlt ↔ B.hem * B.blat < B.hem * L) ∧
      (B.r + B.rf mlt < distCentre B lat mlt ↔ B.hem * L < B.hem * B.blat) ∧
      (distCentre B lat mlt = 0 ↔ L = B.hem * 90) := by
  obtain ⟨L, M, h1, h2⟩ := C24_colatitude B hB lat mlt hr
  refine ⟨L, M, h1, ?_⟩
  set D := distCentre B lat mlt
  set R := B.r + B.rf mlt
  have hs : 0 < 90 - |B.blat| := by linarith [hB.pole]
  have hb := hB.hem_blat
  have hL : B.hem * L = 90 - D * (90 - |B.blat|) / R := by unfold colat at h2; linarith
  have hinj : ∀ u v : ℝ, u = v ↔ B.hem * u = B.hem * v := by
    intro u v
    have : B.hem ≠ 0 := by rcases hB.hem with h | h <;> rw [h] <;> norm_num
    exact ⟨fun h => by rw [h], fun h => mul_left_cancel₀ this h⟩
  rw [hinj L, hinj L, hL, hb, ← mul_assoc, hB.hem_sq]
  clear hL hb h2 h1 hinj
  generalize |B.blat| = p at *
  have e1 : D * (90 - p) / R = 90 - p ↔ D = R := by
    rw [div_eq_iff hr.ne', mul_comm]
    exact ⟨fun h => mul_left_cancel₀ hs.ne' h, fun h => by rw [h]⟩
  have e2 : D * (90 - p) / R < 90 - p ↔ D < R := by
    rw [div_lt_iff₀ hr, mul_comm]
    exact ⟨fun h => lt_of_mul_lt_mul_left h hs.le, fun h => mul_lt_mul_of_pos_left h hs⟩
  have e3 : 90 - p < D * (90 - p) / R ↔ R < D := by
    rw [lt_div_iff₀ hr, mul_comm D]
    exact ⟨fun h => lt_of_mul_lt_mul_left h hs.le, fun h => mul_lt_mul_of_pos_left h hs⟩
  have e4 : D * (90 - p) / R = 0 ↔ D = 0 := by
    rw [div_eq_zero_iff, mul_eq_zero]
    constructor
    · rintro ((h | h) | h)
      · exact h
      · linarith
      · linarith
    · intro h; exact .inl (.inl h)
  rw [← e1, ← e2, ← e3, ← e4]
  refine ⟨?_, ?_, ?_, ?_⟩ <;> constructor <;> intro h <;> linarith

example : 0 < exRec.r + exRec.rf 18 ∧ distCentre exRec 79 18 = 16 := by
  constructor
  · norm_num [exRec]
  · have h : hourAngle 18 - 90 * π / 180 = π := by unfold hourAngle; ring
    simp only [distCentre, polarDist2, colat, exRec, h, Real.cos_pi]
    rw [show (90 - 1 * 79 : ℝ) ^ 2 + 5 ^ 2 - 2 * (90 - 1 * 79) * 5 * -1 = 16 ^ 2 by norm_num]
    exact Real.sqrt_sq (by norm_num)

/-! ### C25 -/

/-- C25, one location: latitude and (away from the magnetic pole) local time come back. -/
theorem C25_revert_normal (B : Rec) (hB : B.Valid) (lat mlt : ℝ) (hr : B.r + B.rf mlt ≠ 0)
    (hlat : B.hem * lat ≤ 90) :
    ∃ L M m, normalPt B lat mlt = .ok (L, M, B.rf mlt) ∧ revertPt B L M (B.rf mlt) = .ok (lat, m) ∧
      0 ≤ m ∧ m < 24 ∧ (B.hem * lat < 90 → SameHour m mlt) := by
  refine ⟨_, _, hoursOf (colat B.hem lat * Real.cos (hourAngle mlt)) (colat B.hem lat * Real.sin (hourAngle mlt)),
    normalPt_ok B lat mlt, ?_⟩
  rw [revertPt_ok, colat_hem hB, hoursOf_cos, hoursOf_sin]
  have hs : colat B.hem B.blat ≠ 0 := by
    unfold colat; rw [hB.hem_blat]; linarith [hB.pole]
  have hs' : 90 - |B.blat| = colat B.hem B.blat := by unfold colat; rw [hB.hem_blat]
  have hx : nX B lat mlt * ((B.r + B.rf mlt) / colat B.hem B.blat) + B.xc
      = colat B.hem lat * Real.cos (hourAngle mlt) := by
    unfold nX Rec.rad; rw [hs']; field_simp; ring
  have hy : nY B lat mlt * ((B.r + B.rf mlt) / colat B.hem B.blat) + B.yc
      = colat B.hem lat * Real.sin (hourAngle mlt) := by
    unfold nY Rec.rad; rw [hs']; field_simp; ring
  rw [hx, hy, sqrt_polar, abs_of_nonneg (by unfold colat; linarith), hem_colat hB]
  exact ⟨rfl, (hoursOf_range _ _).1, (hoursOf_range _ _).2,
    fun h => hoursOf_polar (by unfold colat; linarith)⟩

example : exRec.r + exRec.rf 3 ≠ 0 ∧ exRec.hem * 65 < 90 := by constructor <;> norm_num [exRec]

/-! ### C26 -/

/-- C26, one location: OCB latitude and (away from the OCB pole) OCB local time come back, for every radius correction
that is the one at the reverted local time. -/
theorem C26_normal_revert (B : Rec) (hB : B.Valid) (a b c : ℝ) (hr : B.r + c ≠ 0) (ha : B.hem * a ≤ 90) :
    ∃ lat mlt, revertPt B a b c = .ok (lat, mlt) ∧ 0 ≤ mlt ∧ mlt < 24 ∧
      (B.rf mlt = c → ∃ M, normalPt B lat mlt = .ok (a, M, c) ∧ 0 ≤ M ∧ M < 24 ∧
        (B.hem * a < 90 → SameHour M b)) := by
  refine ⟨_, _, revertPt_ok B a b c, (hoursOf_range _ _).1, (hoursOf_range _ _).2, ?_⟩
  intro hc
  rw [normalPt_ok, hc]
  have hs : colat B.hem B.blat ≠ 0 := by
    unfold colat; rw [hB.hem_blat]; linarith [hB.pole]
  have hs' : 90 - |B.blat| = colat B.hem B.blat := by unfold colat; rw [hB.hem_blat]
  set X := colat B.hem a * Real.cos (hourAngle b) * ((B.r + c) / colat B.hem B.blat) + B.xc with hX
  set Y := colat B.hem a * Real.sin (hourAngle b) * ((B.r + c) / colat B.hem B.blat) + B.yc with hY
  have hx : nX B (B.hem * (90 - √(X ^ 2 + Y ^ 2))) (hoursOf X Y) = colat B.hem a * Real.cos (hourAngle b) := by
    unfold nX Rec.rad; rw [colat_hem hB, hoursOf_cos, hs', hc, hX]; field_simp; ring
  have hy : nY B (B.hem * (90 - √(X ^ 2 + Y ^ 2))) (hoursOf X Y) = colat B.hem a * Real.sin (hourAngle b) := by
    unfold nY Rec.rad; rw [colat_hem hB, hoursOf_sin, hs', hc, hY]; field_simp; ring
  rw [hx, hy, sqrt_polar, abs_of_nonneg (by unfold colat; linarith), hem_colat hB]
  exact ⟨_, rfl, (hoursOf_range _ _).1, (hoursOf_range _ _).2,
    fun h => hoursOf_polar (by unfold colat; linarith)⟩

example : exRec.r + 0 ≠ 0 ∧ exRec.hem * 80 < 90 ∧ ∀ mlt, exRec.rf mlt = 0 := by
  refine ⟨by norm_num [exRec], by norm_num [exRec], fun _ => rfl⟩

/-! ### C28 -/

/-- C28: whole days added to the local time change nothing, for a correction that is a function of the local time. -/
theorem C28_whole_days (B : Rec) (lat mlt : ℝ) (k : ℤ) (hp : ∀ h : ℝ, B.rf (h + k * 24) = B.rf h) :
    normalPt B lat (mlt + k * 24) = normalPt B lat mlt := by
  have ha : hourAngle (mlt + k * 24) = hourAngle mlt + k * (2 * π) := by unfold hourAngle; ring
  have hx : nX B lat (mlt + k * 24) = nX B lat mlt := by
    unfold nX Rec.rad; rw [hp, ha, Real.cos_add_int_mul_two_pi]
  have hy : nY B lat (mlt + k * 24) = nY B lat mlt := by
    unfold nY Rec.rad; rw [hp, ha, Real.sin_add_int_mul_two_pi]
  rw [normalPt_ok, normalPt_ok, hx, hy, hp]

/-- The record seen in the mirror of the equator. -/
def Rec.mirror (B : Rec) : Rec := { B with hem := -B.hem, blat := -B.blat }

/-- C28: mirroring the latitude, the hemisphere and the reference latitude mirrors the OCB latitude only. -/
theorem C28_mirror (B : Rec) (lat mlt : ℝ) :
    ∃ L M, normalPt B lat mlt = .ok (L, M, B.rf mlt) ∧ normalPt B.mirror (-lat) mlt = .ok (-L, M, B.rf mlt) := by
  refine ⟨_, _, normalPt_ok B lat mlt, ?_⟩
  rw [normalPt_ok]
  have hc : colat B.mirror.hem (-lat) = colat B.hem lat := by unfold colat Rec.mirror; ring
  have hx : nX B.mirror (-lat) mlt = nX B lat mlt := by
    unfold nX; rw [hc]; simp [Rec.mirror, Rec.xc, Rec.rad]
  have hy : nY B.mirror (-lat) mlt = nY B lat mlt := by
    unfold nY; rw [hc]; simp [Rec.mirror, Rec.yc, Rec.rad]
  rw [hx, hy]
  congr 2
  simp only [Rec.mirror]; ring

/-- The record turned by `d` degrees about the magnetic pole. -/
noncomputable def Rec.rotate (B : Rec) (d : ℝ) : Rec :=
  { B with phiCent := B.phiCent + d, rf := fun h => B.rf (h - d / 15) }

/-- C28: turning the boundary and the point by the same angle turns the OCB location by that angle. -/
theorem C28_rotate (B : Rec) (hB : B.Valid) (lat mlt d : ℝ) :
    ∃ L M M', normalPt B lat mlt = .ok (L, M, B.rf mlt) ∧
      normalPt (B.rotate d) lat (mlt + d / 15) = .ok (L, M', B.rf mlt) ∧
      (B.hem * L < 90 → SameHour M' (M + d / 15)) := by
  have hf : (B.rotate d).rf (mlt + d / 15) = B.rf mlt := by simp [Rec.rotate]
  have ha : ∀ h : ℝ, hourAngle (h + d / 15) = hourAngle h + d * π / 180 := by intro h; unfold hourAngle; ring
  have hp : radians (B.phiCent + d) = radians B.phiCent + d * π / 180 := by unfold radians; ring
  have hx : nX (B.rotate d) lat (mlt + d / 15)
      = nX B lat mlt * Real.cos (d * π / 180) - nY B lat mlt * Real.sin (d * π / 180) := by
    unfold nX nY Rec.rad; rw [hf]
    simp only [Rec.rotate, Rec.xc, Rec.yc, hp, ha, Real.cos_add]; ring
  have hy : nY (B.rotate d) lat (mlt + d / 15)
      = nX B lat mlt * Real.sin (d * π / 180) + nY B lat mlt * Real.cos (d * π / 180) := by
    unfold nX nY Rec.rad; rw [hf]
    simp only [Rec.rotate, Rec.xc, Rec.yc, hp, ha, Real.sin_add]; ring
  have hn : nX (B.rotate d) lat (mlt + d / 15) ^ 2 + nY (B.rotate d) lat (mlt + d / 15) ^ 2
      = nX B lat mlt ^ 2 + nY B lat mlt ^ 2 := by
    rw [hx, hy]
    linear_combination (nX B lat mlt ^ 2 + nY B lat mlt ^ 2) * Real.sin_sq_add_cos_sq (d * π / 180)
  have h1 := hoursOf_cos (nX B lat mlt) (nY B lat mlt)
  have h2 := hoursOf_sin (nX B lat mlt) (nY B lat mlt)
  have h3 := hoursOf_cos (nX (B.rotate d) lat (mlt + d / 15)) (nY (B.rotate d) lat (mlt + d / 15))
  have h4 := hoursOf_sin (nX (B.rotate d) lat (mlt + d / 15)) (nY (B.rotate d) lat (mlt + d / 15))
  have e := normalPt_ok (B.rotate d) lat (mlt + d / 15)
  rw [hn, hf] at e
  rw [hn] at h3 h4
  refine ⟨_, _, _, normalPt_ok B lat mlt, e, ?_⟩
  intro h
  rw [← mul_assoc, hB.hem_sq] at h
  set ρ := √(nX B lat mlt ^ 2 + nY B lat mlt ^ 2)
  have hρ : ρ ≠ 0 := by intro h0; rw [h0] at h; linarith
  refine sameHour_of hρ ?_ ?_
  · rw [h3, ha, Real.cos_add, hx]
    linear_combination -Real.cos (d * π / 180) * h1 + Real.sin (d * π / 180) * h2
  · rw [h4, ha, Real.sin_add, hy]
    linear_combination -Real.sin (d * π / 180) * h1 - Real.cos (d * π / 180) * h2

example : SameHour 25 1 ∧ exRec.hem * 80 < 90 := ⟨⟨1, by norm_num⟩, by norm_num [exRec]⟩

/-! ### C29 -/

/-- Distances from the magnetic pole at which the meridian of local time `mlt` meets the boundary circle. -/
def Crossings (B : Rec) (mlt : ℝ) : Set ℝ :=
  {ρ | 0 ≤ ρ ∧ polarDist2 ρ (hourAngle mlt) B.rCent (B.phiCent * π / 180) = (B.r + B.rf mlt) ^ 2}

theorem boundaryLat_ok (B : Rec) (mlt : ℝ) : boundaryLat B mlt =
    .ok (if (B.r + B.rf mlt) ^ 2 - (B.rCent * Real.sin (hourAngle mlt - B.phiCent * π / 180)) ^ 2 < 0 then none
      else if B.rCent * Real.cos (hourAngle mlt - B.phiCent * π / 180) + √((B.r + B.rf mlt) ^ 2
          - (B.rCent * Real.sin (hourAngle mlt - B.phiCent * π / 180)) ^ 2) < 0 then none
      else some (B.hem * (90 - (B.rCent * Real.cos (hourAngle mlt - B.phiCent * π / 180) + √((B.r + B.rf mlt) ^ 2
          - (B.rCent * Real.sin (hourAngle mlt - B.phiCent * π / 180)) ^ 2))))) := by
  unfold boundaryLat
  rw [Time.deg2hr_ok]
  simp only [bind, Except.bind, Time.hr2rad_ok, cos_fix, sin_fix, pure, Except.pure]
  obtain ⟨k, hk⟩ := Time.fixVal_congr (B.phiCent / 15) 0 24 (24 : ℝ) (by norm_num)
  have he : (mlt - Time.fixVal (B.phiCent / 15) 0 24 24) * π / 12
      = hourAngle mlt - B.phiCent * π / 180 - k * (2 * π) := by
    rw [hk]; unfold hourAngle; ring
  rw [he, Real.cos_sub_int_mul_two_pi, Real.sin_sub_int_mul_two_pi]
  split_ifs <;> rfl

/-- C29: a latitude is returned exactly when the meridian meets the circle, and it is the one of the most
equatorward crossing. -/
theorem C29_greatest_crossing (B : Rec) (mlt : ℝ) :
    (boundaryLat B mlt = .ok none ∧ Crossings B mlt = ∅) ∨
    ∃ ρ, IsGreatest (Crossings B mlt) ρ ∧ boundaryLat B mlt = .ok (some (B.hem * (90 - ρ))) := by
  rw [boundaryLat_ok]
  set δ := hourAngle mlt - B.phiCent * π / 180 with hδ
  set R := B.r + B.rf mlt
  have hsc := Real.sin_sq_add_cos_sq δ
  have key : ∀ ρ : ℝ, polarDist2 ρ (hourAngle mlt) B.rCent (B.phiCent * π / 180) = R ^ 2 ↔
      (ρ - B.rCent * Real.cos δ) ^ 2 = R ^ 2 - (B.rCent * Real.sin δ) ^ 2 := by
    intro ρ
    unfold polarDist2
    rw [← hδ]
    constructor <;> intro h
    · linear_combination h + B.rCent ^ 2 * hsc
    · linear_combination h - B.rCent ^ 2 * hsc
  split_ifs with h1 h2
  · refine .inl ⟨rfl, Set.eq_empty_of_forall_notMem ?_⟩
    rintro ρ ⟨-, h⟩
    have := (key ρ).1 h
    nlinarith [sq_nonneg (ρ - B.rCent * Real.cos δ)]
  · refine .inl ⟨rfl, Set.eq_empty_of_forall_notMem ?_⟩
    rintro ρ ⟨h0, h⟩
    have h3 := (key ρ).1 h
    have h4 : ρ - B.rCent * Real.cos δ ≤ √(R ^ 2 - (B.rCent * Real.sin δ) ^ 2) := by
      rw [← h3]; exact Real.le_sqrt_of_sq_le le_rfl
    linarith
  · refine .inr ⟨_, ⟨⟨not_lt.1 h2, ?_⟩, ?_⟩, rfl⟩
    · rw [key, add_sub_cancel_left, Real.sq_sqrt (not_lt.1 h1)]
    · rintro ρ ⟨h0, h⟩
      have h3 := (key ρ).1 h
      have h4 : ρ - B.rCent * Real.cos δ ≤ √(R ^ 2 - (B.rCent * Real.sin δ) ^ 2) := by
        rw [← h3]; exact Real.le_sqrt_of_sq_le le_rfl
      linarith

/-- C29: a returned latitude normalises to exactly the reference latitude. -/
theorem C29_on_boundary (B : Rec) (hB : B.Valid) (mlt lat : ℝ) (hr : 0 < B.r + B.rf mlt)
    (h : boundaryLat B mlt = .ok (some lat)) : ∃ M, normalPt B lat mlt = .ok (B.blat, M, B.rf mlt) := by
  rcases C29_greatest_crossing B mlt with ⟨h1, -⟩ | ⟨ρ, ⟨⟨h0, h1⟩, -⟩, h2⟩
  · rw [h1] at h; simp at h
  · rw [h2] at h
    obtain rfl : B.hem * (90 - ρ) = lat := by simpa using h
    obtain ⟨L, M, e, f, -⟩ := C24_boundary_circle B hB (B.hem * (90 - ρ)) mlt hr
    refine ⟨M, ?_⟩
    rw [e, f.1]
    unfold distCentre
    rw [colat_hem hB, h1, Real.sqrt_sq hr.le]

/-- C29: with the magnetic pole inside the circle, every local time has a boundary latitude, on the pole side of the
opposite pole. -/
theorem C29_pole_inside (B : Rec) (mlt : ℝ) (hr : |B.rCent| < B.r + B.rf mlt) :
    ∃ ρ, 0 < ρ ∧ boundaryLat B mlt = .ok (some (B.hem * (90 - ρ))) ∧ Crossings B mlt = {ρ} := by
  have hsc := Real.sin_sq_add_cos_sq (hourAngle mlt - B.phiCent * π / 180)
  have hR : B.rCent ^ 2 < (B.r + B.rf mlt) ^ 2 := sq_lt_sq' (by linarith [neg_abs_le B.rCent]) (by linarith [le_abs_self B.rCent])
  rcases C29_greatest_crossing B mlt with ⟨h1, h2⟩ | ⟨ρ, ⟨⟨h0, h1⟩, hmax⟩, h2⟩
  · exfalso
    have key : B.rCent * Real.cos (hourAngle mlt - B.phiCent * π / 180) + √((B.r + B.rf mlt) ^ 2
          - (B.rCent * Real.sin (hourAngle mlt - B.phiCent * π / 180)) ^ 2) ∈ Crossings B mlt := by
      have hd : (B.rCent * Real.cos (hourAngle mlt - B.phiCent * π / 180)) ^ 2 ≤ (B.r + B.rf mlt) ^ 2
          - (B.rCent * Real.sin (hourAngle mlt - B.phiCent * π / 180)) ^ 2 := by nlinarith
      have hs := Real.sq_sqrt (le_trans (sq_nonneg _) hd)
      refine ⟨?_, ?_⟩
      · have := Real.abs_le_sqrt hd
        linarith [neg_abs_le (B.rCent * Real.cos (hourAngle mlt - B.phiCent * π / 180))]
      · unfold polarDist2
        linear_combination hs - B.rCent ^ 2 * hsc
    rw [h2] at key
    exact key
  · have hpos : ∀ x ∈ Crossings B mlt, 0 < x := by
      rintro x ⟨hx0, hx⟩
      rcases hx0.lt_or_eq with h | h
      · exact h
      · exfalso
        rw [← h] at hx
        unfold polarDist2 at hx
        nlinarith
    refine ⟨ρ, hpos ρ ⟨h0, h1⟩, h2, ?_⟩
    refine Set.eq_singleton_iff_unique_mem.2 ⟨⟨h0, h1⟩, ?_⟩
    intro x hx
    have hx0 := hpos x hx
    have hρ := hpos ρ ⟨h0, h1⟩
    have hx2 := hx.2
    unfold polarDist2 at hx2 h1
    by_contra hne
    have hp : (x - ρ) * (x + ρ - 2 * B.rCent * Real.cos (hourAngle mlt - B.phiCent * π / 180)) = 0 := by
      linear_combination hx2 - h1
    rcases mul_eq_zero.1 hp with h | h
    · exact hne (by linarith)
    · nlinarith [mul_pos hx0 hρ]

example : |exRec.rCent| < exRec.r + exRec.rf 12 := by norm_num [exRec]

/-! ### C27: the domain of the transforms -/

/-- C27: without a selected record everything is NaN. -/
theorem C27_normal_no_record (pts : List (Option ℝ × Option ℝ)) :
    normalArr none pts = .ok (pts.map fun _ => (none, none, none), pts.map (·.1)) := rfl

/-- C27: without a selected record everything is NaN. -/
theorem C27_revert_no_record (pts : List (Option ℝ × Option ℝ × Option ℝ)) :
    revertArr none pts = .ok (pts.map fun _ => (none, none)) := rfl

/-- What `normal_coord` owes for one location: numbers in range for a location of the right hemisphere, NaN for a
wrong hemisphere, latitude zero, or a NaN coordinate. -/
def NormalOut (B : Rec) (p : Option ℝ × Option ℝ) (o : Option ℝ × Option ℝ × Option ℝ) : Prop :=
  (∃ lat mlt, p = (some lat, some mlt) ∧ InHem B.hem lat ∧
    ∃ L M, normalPt B lat mlt = .ok (L, M, B.rf mlt) ∧ o = (some L, some M, some (B.rf mlt)) ∧
      0 ≤ M ∧ M < 24 ∧ B.hem * L ≤ 90) ∨
  ((∀ lat mlt, p = (some lat, some mlt) → ¬ InHem B.hem lat) ∧ o.1 = none ∧ o.2.1 = none)

theorem wrongHem_iff (hem : ℝ) (l : Option ℝ) : wrongHem hem l = false ↔ ∃ lat, l = some lat ∧ InHem hem lat := by
  cases l with
  | none => simp [wrongHem]
  | some lat => simp [wrongHem, InHem]

theorem normalEntry_out (B : Rec) (hB : B.Valid) (p : Option ℝ × Option ℝ) :
    ∃ o, normalEntry B (if wrongHem B.hem p.1 then none else p.1) p.2 = .ok o ∧ NormalOut B p o := by
  obtain ⟨l, m⟩ := p
  cases hw : wrongHem B.hem l with
  | true =>
    have hn : ∀ lat mlt, (l, m) = (some lat, some mlt) → ¬ InHem B.hem lat := by
      rintro lat mlt h hin
      simp only [Prod.mk.injEq] at h
      have := (wrongHem_iff B.hem l).2 ⟨lat, h.1, hin⟩
      rw [hw] at this; cases this
    cases m with
    | none => exact ⟨(none, none, none), by simp [hw, normalEntry, pure, Except.pure], .inr ⟨hn, rfl, rfl⟩⟩
    | some m => exact ⟨(none, none, some (B.rf m)), by simp [hw, normalEntry, pure, Except.pure], .inr ⟨hn, rfl, rfl⟩⟩
  | false =>
    obtain ⟨lat, rfl, hin⟩ := (wrongHem_iff _ _).1 hw
    cases m with
    | none =>
      exact ⟨(none, none, none), by simp [hw, normalEntry, pure, Except.pure], .inr ⟨by simp, rfl, rfl⟩⟩
    | some m =>
      refine ⟨(some _, some _, some (B.rf m)), ?_, .inl ⟨lat, m, rfl, hin, _, _, normalPt_ok B lat m, rfl,
        (hoursOf_range _ _).1, (hoursOf_range _ _).2, ?_⟩⟩
      · simp only [hw, normalEntry, normalPt_ok, bind, Except.bind, pure, Except.pure]
        simp
      · rw [← mul_assoc, hB.hem_sq]
        linarith [Real.sqrt_nonneg (nX B lat m ^ 2 + nY B lat m ^ 2)]

/-- C27: `normal_coord` never raises for magnetic coordinates, keeps the shape, and is NaN exactly outside the domain,
entry by entry. -/
theorem C27_normal_entries (B : Rec) (hB : B.Valid) (pts : List (Option ℝ × Option ℝ)) :
    ∃ out lats, normalArr (some B) pts = .ok (out, lats) ∧ List.Forall₂ (NormalOut B) pts out := by
  unfold normalArr
  simp only []
  split_ifs with h
  · refine ⟨_, _, rfl, ?_⟩
    rw [List.forall₂_map_right_iff, List.forall₂_same]
    intro p hp
    refine .inr ⟨?_, rfl, rfl⟩
    rintro lat mlt rfl hin
    have h2 := (Bool.and_eq_true_iff.1 h).2
    rw [List.all_eq_true] at h2
    have := h2 (some lat) (List.mem_map.2 ⟨_, hp, rfl⟩)
    rw [(wrongHem_iff B.hem (some lat)).2 ⟨lat, rfl, hin⟩] at this
    cases this
  · choose f hf using normalEntry_out B hB
    refine ⟨pts.map f, (pts.map (·.1)).map fun l => if wrongHem B.hem l then none else l, ?_, ?_⟩
    · simp only [bind, Except.bind, pure, Except.pure]
      rw [mapE_map (g := f) (fun a _ => (hf a).1)]
    · rw [List.forall₂_map_right_iff, List.forall₂_same]
      exact fun p _ => (hf p).2

example : InHem exRec.hem 70 ∧ ¬ InHem exRec.hem 0 ∧ ¬ InHem exRec.hem (-70) := by
  refine ⟨?_, ?_, ?_⟩
  · simp [InHem, exRec]
  · simp [InHem, exRec]
  · have : SignType.sign (-70 : ℝ) = -1 := sign_neg (by norm_num)
    simp only [InHem, exRec, this]; norm_num

/-- What `revert_coord` computes for one entry when it computes at all. -/
def RevertOut (B : Rec) (p : Option ℝ × Option ℝ × Option ℝ) (o : Option ℝ × Option ℝ) : Prop :=
  (∃ a b c, p = (some a, some b, some c) ∧ ∃ lat mlt, revertPt B a b c = .ok (lat, mlt) ∧ o = (some lat, some mlt) ∧
      0 ≤ mlt ∧ mlt < 24 ∧ B.hem * lat ≤ 90) ∨
  ((∀ a b c, p ≠ (some a, some b, some c)) ∧ o = (none, none))

theorem revertEntry_out (B : Rec) (hB : B.Valid) (p : Option ℝ × Option ℝ × Option ℝ) :
    ∃ o, revertEntry B p.1 p.2.1 p.2.2 = .ok o ∧ RevertOut B p o := by
  obtain ⟨a, b, c⟩ := p
  cases a with
  | none => exact ⟨(none, none), by simp [revertEntry, pure, Except.pure], .inr ⟨by simp, rfl⟩⟩
  | some a =>
    cases b with
    | none => exact ⟨(none, none), by simp [revertEntry, pure, Except.pure], .inr ⟨by simp, rfl⟩⟩
    | some b =>
      cases c with
      | none => exact ⟨(none, none), by simp [revertEntry, pure, Except.pure], .inr ⟨by simp, rfl⟩⟩
      | some c =>
        refine ⟨(some _, some _), ?_, .inl ⟨a, b, c, rfl, _, _, revertPt_ok B a b c, rfl,
          (hoursOf_range _ _).1, (hoursOf_range _ _).2, ?_⟩⟩
        · simp only [revertEntry, revertPt_ok, bind, Except.bind, pure, Except.pure]
        · rw [← mul_assoc, hB.hem_sq, one_mul]
          exact sub_le_self _ (Real.sqrt_nonneg _)

/-- C27, partial: `revert_coord` is NaN everywhere when no entry is in the right hemisphere; when one is, every entry is
computed from its numbers.  Missing from the claim: NaN for the entries of the wrong hemisphere in a mixed array (see
`C27_revert_mixed_refuted`). -/
theorem C27_revert_entries_partial (B : Rec) (hB : B.Valid) (pts : List (Option ℝ × Option ℝ × Option ℝ)) :
    ((∀ p ∈ pts, ∀ a, p.1 = some a → ¬ InHem B.hem a) ∧ revertArr (some B) pts = .ok (pts.map fun _ => (none, none))) ∨
    ((∃ p ∈ pts, ∃ a, p.1 = some a ∧ InHem B.hem a) ∧
      ∃ out, revertArr (some B) pts = .ok out ∧ List.Forall₂ (RevertOut B) pts out) := by
  unfold revertArr
  simp only []
  split_ifs with h
  · refine .inl ⟨?_, rfl⟩
    intro p hp a hpa hin
    rw [List.all_eq_true] at h
    have := h p.1 (List.mem_map.2 ⟨_, hp, rfl⟩)
    rw [(wrongHem_iff B.hem p.1).2 ⟨a, hpa, hin⟩] at this
    cases this
  · refine .inr ⟨?_, ?_⟩
    · rw [List.all_eq_true] at h
      push Not at h
      obtain ⟨x, hx, hw⟩ := h
      obtain ⟨p, hp, rfl⟩ := List.mem_map.1 hx
      obtain ⟨a, h1, h2⟩ := (wrongHem_iff B.hem p.1).1 (by simpa using hw)
      exact ⟨p, hp, a, h1, h2⟩
    · choose f hf using revertEntry_out B hB
      refine ⟨pts.map f, ?_, ?_⟩
      · rw [mapE_map (g := f) (fun a _ => (hf a).1)]
      · rw [List.forall₂_map_right_iff, List.forall₂_same]
        exact fun p _ => (hf p).2

/-- C27 for one location: `revert_coord` returns numbers exactly in the domain. -/
theorem C27_revert_single (B : Rec) (hB : B.Valid) (a b c : ℝ) :
    (InHem B.hem a → ∃ lat mlt, revertArr (some B) [(some a, some b, some c)] = .ok [(some lat, some mlt)] ∧
      revertPt B a b c = .ok (lat, mlt) ∧ 0 ≤ mlt ∧ mlt < 24 ∧ B.hem * lat ≤ 90) ∧
    (¬ InHem B.hem a → revertArr (some B) [(some a, some b, some c)] = .ok [(none, none)]) := by
  rcases C27_revert_entries_partial B hB [(some a, some b, some c)] with ⟨h1, h2⟩ | ⟨⟨p, hp, a', h1, h2⟩, out, h3, h4⟩
  · have := h1 (some a, some b, some c) (by simp) a rfl
    exact ⟨fun h => absurd h this, fun _ => h2⟩
  · obtain rfl : p = (some a, some b, some c) := by simpa using hp
    obtain rfl : a = a' := by simpa using h1
    refine ⟨fun _ => ?_, fun h => absurd h2 h⟩
    cases h4 with
    | cons h5 h6 =>
      cases h6
      rcases h5 with ⟨a1, b1, c1, e, lat, mlt, e1, rfl, e2⟩ | ⟨h, -⟩
      · simp only [Prod.mk.injEq, Option.some.injEq] at e
        obtain ⟨rfl, rfl, rfl⟩ := e
        exact ⟨lat, mlt, h3, e1, e2⟩
      · exact absurd rfl (h a b c)

theorem sign_hem (x : ℝ) (h : 0 < x) : InHem 1 x ∧ ¬ InHem 1 (-x) := by
  constructor
  · simp [InHem, sign_pos h]
  · have : SignType.sign (-x) = -1 := sign_neg (by linarith)
    simp only [InHem, this]; norm_num

/-- C27 is false for mixed arrays: a southern OCB latitude passed to a northern boundary together with a northern one
gets a number, not NaN. -/
theorem C27_revert_mixed_refuted : ∃ out lat mlt, ¬ InHem exRec.hem (-80) ∧
    revertArr (some exRec) [(some 80, some 6, some 0), (some (-80), some 6, some 0)] = .ok out ∧
    out[1]? = some (some lat, some mlt) := by
  rcases C27_revert_entries_partial exRec exRec_valid [(some 80, some 6, some 0), (some (-80), some 6, some 0)] with
    ⟨h1, -⟩ | ⟨-, out, h3, h4⟩
  · exact absurd (sign_hem 80 (by norm_num)).1 (h1 (some 80, some 6, some 0) (by simp) 80 rfl)
  · cases h4 with
    | cons h5 h6 =>
      cases h6 with
      | cons h7 h8 =>
        cases h8
        rcases h7 with ⟨a1, b1, c1, e, lat, mlt, e1, rfl, e2⟩ | ⟨h, -⟩
        · exact ⟨_, lat, mlt, (sign_hem 80 (by norm_num)).2, h3, rfl⟩
        · exact absurd rfl (h (-80) 6 0)

/-- C27 is false about the size of the latitude: near the equator a small boundary gives OCB latitudes below -90. -/
theorem C27_latitude_range_refuted : ∃ (B : Rec) (lat mlt L M : ℝ), B.Valid ∧ InHem B.hem lat ∧ 0 < B.r + B.rf mlt ∧
    normalPt B lat mlt = .ok (L, M, B.rf mlt) ∧ L < -90 := by
  have hv : (⟨0, 0, 7, fun _ => 0, 1, 74⟩ : Rec).Valid :=
    ⟨.inl rfl, by norm_num, by rw [abs_lt]; constructor <;> norm_num⟩
  obtain ⟨L, M, h1, h2⟩ := C24_colatitude ⟨0, 0, 7, fun _ => 0, 1, 74⟩ hv 1 0 (by norm_num)
  refine ⟨⟨0, 0, 7, fun _ => 0, 1, 74⟩, 1, 0, L, M, hv, (sign_hem 1 (by norm_num)).1, by norm_num, h1, ?_⟩
  have : distCentre ⟨0, 0, 7, fun _ => 0, 1, 74⟩ 1 0 = 89 := by
    simp only [distCentre, polarDist2, colat]
    rw [show (90 - 1 * 1 : ℝ) ^ 2 + 0 ^ 2 - 2 * (90 - 1 * 1) * 0 * Real.cos (hourAngle 0 - 0 * π / 180) = 89 ^ 2 by ring]
    exact Real.sqrt_sq (by norm_num)
  rw [this] at h2
  simp only [colat] at h2
  rw [abs_of_pos (by norm_num : (0:ℝ) < 74)] at h2
  linarith

/-! ### C25 and C26 for whole arrays -/

/-- C25 through the interface: an array of locations of the right hemisphere, normalised and reverted with the returned
radius corrections, comes back, provided at least one OCB latitude lies in the hemisphere (a single location must). -/
theorem C25_array_round_trip (B : Rec) (hB : B.Valid) (pts : List (ℝ × ℝ))
    (hin : ∀ p ∈ pts, InHem B.hem p.1 ∧ |p.1| ≤ 90 ∧ B.r + B.rf p.2 ≠ 0) :
    ∃ out lats, normalArr (some B) (pts.map fun p => (some p.1, some p.2)) = .ok (out, lats) ∧
      ((∃ q ∈ out, ∃ L, q.1 = some L ∧ InHem B.hem L) → ∃ back, revertArr (some B) out = .ok back ∧
        List.Forall₂ (fun p q => ∃ m, q = (some p.1, some m) ∧ 0 ≤ m ∧ m < 24 ∧ (|p.1| < 90 → SameHour m p.2)) pts back)
    := by
  have habs : ∀ lat, InHem B.hem lat → B.hem * lat = |lat| := by
    intro lat h
    unfold InHem at h
    rw [← h, sign_mul_self]
  obtain ⟨out, lats, h1, h2⟩ := C27_normal_entries B hB (pts.map fun p => (some p.1, some p.2))
  refine ⟨out, lats, h1, ?_⟩
  intro hex
  rcases C27_revert_entries_partial B hB out with ⟨h3, -⟩ | ⟨-, back, h3, h4⟩
  · obtain ⟨q, hq, L, e, hL⟩ := hex
    exact absurd hL (h3 q hq L e)
  · refine ⟨back, h3, ?_⟩
    clear h1 h3 hex
    rw [List.forall₂_map_left_iff] at h2
    induction h2 generalizing back with
    | nil => cases h4; exact .nil
    | cons hpq hrest ih =>
      rename_i p q ps qs
      cases h4 with
      | cons h5 h6 =>
        refine .cons ?_ (ih (fun p hp => hin p (List.mem_cons_of_mem _ hp)) _ h6)
        obtain ⟨i1, i2, i3⟩ := hin p List.mem_cons_self
        rcases hpq with ⟨lat, mlt, e, -, L, M, e1, rfl, -⟩ | ⟨h, -⟩
        · simp only [Prod.mk.injEq, Option.some.injEq] at e
          obtain ⟨rfl, rfl⟩ := e
          obtain ⟨L', M', m, n1, n2, n3, n4, n5⟩ := C25_revert_normal B hB p.1 p.2 i3 (by rw [habs _ i1]; exact i2)
          rw [e1] at n1
          simp only [Except.ok.injEq, Prod.mk.injEq] at n1
          obtain ⟨rfl, rfl, -⟩ := n1
          rcases h5 with ⟨a, b, c, e, lat, mlt, r1, rfl, -⟩ | ⟨h, -⟩
          · simp only [Prod.mk.injEq, Option.some.injEq] at e
            obtain ⟨rfl, rfl, rfl⟩ := e
            rw [n2] at r1
            simp only [Except.ok.injEq, Prod.mk.injEq] at r1
            obtain ⟨rfl, rfl⟩ := r1
            exact ⟨m, rfl, n3, n4, fun hh => n5 (by rw [habs _ i1]; exact hh)⟩
          · exact absurd rfl (h _ _ _)
        · exact absurd i1 (h _ _ rfl)

example : ∀ p ∈ [((80 : ℝ), (3 : ℝ)), (65, 30)], InHem exRec.hem p.1 ∧ |p.1| ≤ 90 ∧ exRec.r + exRec.rf p.2 ≠ 0 := by
  intro p hp
  simp only [List.mem_cons, List.not_mem_nil, or_false] at hp
  rcases hp with rfl | rfl
  · exact ⟨(sign_hem 80 (by norm_num)).1, by rw [abs_of_pos] <;> norm_num, by norm_num [exRec]⟩
  · exact ⟨(sign_hem 65 (by norm_num)).1, by rw [abs_of_pos] <;> norm_num, by norm_num [exRec]⟩

/-- C26 through the interface, one location. -/
theorem C26_single_round_trip (B : Rec) (hB : B.Valid) (a b c : ℝ) (ha : InHem B.hem a) (ha' : |a| ≤ 90)
    (hr : B.r + c ≠ 0) : ∃ lat mlt, revertArr (some B) [(some a, some b, some c)] = .ok [(some lat, some mlt)] ∧
      (InHem B.hem lat → B.rf mlt = c → ∃ M, normalArr (some B) [(some lat, some mlt)]
        = .ok ([(some a, some M, some c)], [some lat]) ∧ 0 ≤ M ∧ M < 24 ∧ (|a| < 90 → SameHour M b)) := by
  have habs : B.hem * a = |a| := by
    unfold InHem at ha
    rw [← ha, sign_mul_self]
  obtain ⟨lat, mlt, e1, e2, -⟩ := (C27_revert_single B hB a b c).1 ha
  refine ⟨lat, mlt, e1, ?_⟩
  intro hin hc
  obtain ⟨lat', mlt', n1, -, -, n2⟩ := C26_normal_revert B hB a b c hr (by rw [habs]; exact ha')
  rw [e2] at n1
  simp only [Except.ok.injEq, Prod.mk.injEq] at n1
  obtain ⟨rfl, rfl⟩ := n1
  obtain ⟨M, n3, n4, n5, n6⟩ := n2 hc
  refine ⟨M, ?_, n4, n5, fun h => n6 (by rw [habs]; exact h)⟩
  have hw : wrongHem B.hem (some lat) = false := (wrongHem_iff _ _).2 ⟨lat, rfl, hin⟩
  unfold normalArr
  simp [hw, mapE, normalEntry, n3, bind, Except.bind, pure, Except.pure]

example : InHem exRec.hem 80 ∧ |(80 : ℝ)| < 90 ∧ exRec.r + 0 ≠ 0 :=
  ⟨(sign_hem 80 (by norm_num)).1, by rw [abs_of_pos] <;> norm_num, by norm_num [exRec]⟩

end Ocb.Coord
