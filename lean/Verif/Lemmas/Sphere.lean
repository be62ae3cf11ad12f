import Verif.Spec.Vectors
import Verif.Lemmas.Vectors

/-! Helper lemmas: the spherical triangle of `calc_vec_pole_angle`. -/

set_option autoImplicit false

namespace Ocb.Vec

open Real Ocb.Time Ocb.Coord

/-- North component of the direction from the data (latitude `a`) to the pole (latitude `b`), `L` the longitude
difference, all in radians. -/
noncomputable def tN (a b L : ℝ) : ℝ := cos a * sin b - sin a * cos b * cos L

/-- East component of that direction. -/
noncomputable def tE (b L : ℝ) : ℝ := cos b * sin L

/-- Its length. -/
noncomputable def tLen (a b L : ℝ) : ℝ := √(tE b L ^ 2 + tN a b L ^ 2)

/-- Cosine of the distance between data and pole. -/
noncomputable def cDist (a b L : ℝ) : ℝ := sin a * sin b + cos a * cos b * cos L

theorem tLen_sq (a b L : ℝ) : tLen a b L ^ 2 = 1 - cDist a b L ^ 2 := by
  unfold tLen
  rw [Real.sq_sqrt (by positivity)]
  unfold tE tN cDist
  have h1 := sin_sq_add_cos_sq a
  have h2 := sin_sq_add_cos_sq b
  have h3 := sin_sq_add_cos_sq L
  rw [eq_sub_iff_add_eq]
  have e1 : sin a ^ 2 = 1 - cos a ^ 2 := by linarith
  have e2 : sin b ^ 2 = 1 - cos b ^ 2 := by linarith
  have e3 : sin L ^ 2 = 1 - cos L ^ 2 := by linarith
  ring_nf
  rw [e1, e2, e3]
  ring

theorem tLen_nonneg (a b L : ℝ) : 0 ≤ tLen a b L := Real.sqrt_nonneg _

theorem tLen_eq (a b L : ℝ) : √(1 - cDist a b L ^ 2) = tLen a b L := by
  rw [← tLen_sq, Real.sqrt_sq (tLen_nonneg a b L)]

/-- `sin b - sin a cos(dist) = cos a · tN`: the law of cosines in terms of the tangent. -/
theorem law (a b L : ℝ) : sin b - sin a * cDist a b L = cos a * tN a b L := by
  unfold cDist tN
  have h1 := sin_sq_add_cos_sq a
  have e1 : sin a ^ 2 = 1 - cos a ^ 2 := by linarith
  ring_nf
  rw [e1]
  ring

theorem tLen_pos {a b L : ℝ} (ha : cos a ≠ 0) (hL : sin L ≠ 0) : 0 < tLen a b L := by
  unfold tLen
  apply Real.sqrt_pos.2
  by_contra h
  have h1 := sq_nonneg (tE b L)
  have h2 := sq_nonneg (tN a b L)
  have h3 : tE b L ^ 2 = 0 := by linarith
  have h4 : tN a b L ^ 2 = 0 := by linarith
  have h5 : tE b L = 0 := by simpa using h3
  have h6 : tN a b L = 0 := by simpa using h4
  unfold tE at h5
  have hb : cos b = 0 := by
    rcases mul_eq_zero.1 h5 with h | h
    · exact h
    · exact absurd h hL
  unfold tN at h6
  rw [hb] at h6
  have hs : sin b = 0 := by
    rcases mul_eq_zero.1 (show cos a * sin b = 0 by linarith) with h | h
    · exact absurd h ha
    · exact h
  have := sin_sq_add_cos_sq b
  rw [hb, hs] at this
  norm_num at this

theorem two_arccos_sqrt {t : ℝ} (h1 : -1 ≤ t) (h2 : t ≤ 1) : 2 * arccos (√((1 + t) / 2)) = arccos t := by
  have h := Real.cos_half (x := arccos t) (by linarith [arccos_nonneg t, pi_pos]) (arccos_le_pi t)
  rw [cos_arccos h1 h2] at h
  rw [← h, arccos_cos]
  · ring
  · linarith [arccos_nonneg t]
  · linarith [arccos_le_pi t, pi_pos]

theorem abs_tN_le (a b L : ℝ) : |tN a b L| ≤ tLen a b L := by
  apply Real.abs_le_sqrt
  nlinarith [sq_nonneg (tE b L)]

/-- The triangle computation off the special meridians. -/
theorem triangle_ok {L dlat plat s : ℝ} (hs : (SignType.sign plat : ℝ) = s) (hs1 : s = 1 ∨ s = -1)
    (ha : 0 < cos (radians dlat)) (hL : sin L ≠ 0) :
    triangleAngle L dlat plat =
      some (degrees (arccos (s * tN (radians dlat) (radians plat) L / tLen (radians dlat) (radians plat) L))) := by
  unfold triangleAngle
  simp only
  rw [hs]
  generalize radians dlat = a at *
  generalize radians plat = b at *
  have hpos := tLen_pos (b := b) ha.ne' hL
  have hsq := tLen_sq a b L
  have habs := abs_tN_le a b L
  have hss : s * s = 1 := by rcases hs1 with rfl | rfl <;> norm_num
  set y := tLen a b L with hy
  have ey : √((cos b * sin L) ^ 2 + (cos a * sin b - sin a * cos b * cos L) ^ 2) = y := rfl
  rw [ey]
  have ex : sin a * sin b + cos a * cos b * cos L = cDist a b L := rfl
  rw [ex]
  have hc := atan2_cos (cDist a b L) y
  have hsn := atan2_sin (cDist a b L) y
  have hone : √(cDist a b L ^ 2 + y ^ 2) = 1 := by rw [hsq]; simp
  rw [hone, one_mul] at hc hsn
  generalize atan2 y (cDist a b L) = d at *
  have eP : s * (s * π * (1 / 2) - b) = π / 2 - s * b := by linear_combination (π / 2) * hss
  have eV : s * (s * π * (1 / 2) - a) = π / 2 - s * a := by linear_combination (π / 2) * hss
  rw [eP, eV]
  have cP : cos (π / 2 - s * b) = s * sin b := by
    rw [cos_pi_div_two_sub]; rcases hs1 with rfl | rfl <;> simp
  have sV : sin (π / 2 - s * a) = cos a := by
    rw [sin_pi_div_two_sub]; rcases hs1 with rfl | rfl <;> simp
  have cV : cos (π / 2 - s * a) = s * sin a := by
    rw [cos_pi_div_two_sub]; rcases hs1 with rfl | rfl <;> simp
  generalize π / 2 - s * b = P at *
  generalize π / 2 - s * a = V at *
  have num : sin (1 / 2 * (V + d + P)) * sin (1 / 2 * (V + d + P) - P) = (cos P - cos (V + d)) / 2 := by
    have e1 : P = 1 / 2 * (V + d + P) - (1 / 2 * (V + d + P) - P) := by ring
    have e2 : V + d = 1 / 2 * (V + d + P) + (1 / 2 * (V + d + P) - P) := by ring
    have h1 : cos P = cos (1 / 2 * (V + d + P) - (1 / 2 * (V + d + P) - P)) := by rw [← e1]
    have h2 : cos (V + d) = cos (1 / 2 * (V + d + P) + (1 / 2 * (V + d + P) - P)) := by rw [← e2]
    rw [h1, h2, cos_sub, cos_add]
    ring
  rw [num, sV, hsn, cos_add, cP, cV, sV, hc, hsn]
  have hden : cos a * y ≠ 0 := mul_ne_zero ha.ne' hpos.ne'
  rw [if_neg hden]
  have hl := law a b L
  have hq : (s * sin b - (s * sin a * cDist a b L - cos a * y)) / 2 / (cos a * y) = (1 + s * tN a b L / y) / 2 := by
    rw [div_div, div_eq_div_iff (by positivity) (by norm_num)]
    have : s * tN a b L / y * (2 * (cos a * y)) = 2 * s * (cos a * tN a b L) := by field_simp
    linear_combination (2 * s) * hl - this
  rw [hq]
  have ht : |s * tN a b L / y| ≤ 1 := by
    rw [abs_div, abs_mul, abs_of_pos hpos, div_le_one hpos]
    have : |s| = 1 := by rcases hs1 with rfl | rfl <;> simp
    rw [this, one_mul]
    exact habs
  obtain ⟨t1, t2⟩ := abs_le.1 ht
  generalize s * tN a b L / y = t at *
  have h3 := two_arccos_sqrt t1 t2
  have hnn : 0 ≤ (1 + t) / 2 := by linarith
  have hle : √((1 + t) / 2) ≤ 1 := by rw [Real.sqrt_le_one]; linarith
  have hge := Real.sqrt_nonneg ((1 + t) / 2)
  have n1 : npSqrt ((1 + t) / 2) = some (√((1 + t) / 2)) := by
    unfold npSqrt; rw [if_neg (not_lt.2 hnn)]
  have n2 : npArccos (√((1 + t) / 2)) = some (arccos (√((1 + t) / 2))) := by
    unfold npArccos; rw [if_neg]; push Not; exact ⟨by linarith, hle⟩
  rw [n1]
  simp only [bind, Option.bind, pure]
  rw [n2]
  simp only [h3]

theorem dot_places (da dl pa pl : ℝ) :
    dot (place pa pl) (place da dl) = cDist (radians da) (radians pa) (hourAngle (pl - dl)) := by
  unfold dot place cDist radians
  have : hourAngle (pl - dl) = hourAngle pl - hourAngle dl := by unfold hourAngle; ring
  rw [this, cos_sub]
  ring

/-- The angle of the specification in terms of the tangent. -/
theorem angleAt_eq {da dl pa pl s : ℝ} (hs1 : s = 1 ∨ s = -1) (ha : 0 < cos (radians da)) :
    angleAt (place da dl) (basePole s) (place pa pl) =
      arccos (s * tN (radians da) (radians pa) (hourAngle (pl - dl)) /
        tLen (radians da) (radians pa) (hourAngle (pl - dl))) := by
  unfold angleAt
  rw [dot_places]
  have h1 : dot (basePole s) (place da dl) = s * sin (radians da) := by
    unfold dot basePole place radians; ring
  have h2 : dot (basePole s) (place pa pl) = s * sin (radians pa) := by
    unfold dot basePole place radians; ring
  rw [h1, h2, tLen_eq]
  have hss : s ^ 2 = 1 := by rcases hs1 with rfl | rfl <;> norm_num
  have h3 : √(1 - (s * sin (radians da)) ^ 2) = cos (radians da) := by
    rw [mul_pow, hss, one_mul, ← cos_sq', Real.sqrt_sq ha.le]
  rw [h3]
  generalize hourAngle (pl - dl) = L
  generalize radians da = a at *
  generalize radians pa = b
  have hl := law a b L
  congr 1
  rw [show s * sin b - s * sin a * cDist a b L = cos a * (s * tN a b L) by linear_combination s * hl]
  rw [mul_div_mul_left _ _ ha.ne']

end Ocb.Vec
