import Mathlib.Analysis.SpecialFunctions.Trigonometric.Bounds
import Verif.Props.Coord

/-!
# C176: how far `normal_coord` moves locations apart
-/

set_option autoImplicit false

namespace Ocb.Coord

open Real

/-- The square of the distance in the plane, from coordinates. -/
theorem polarDist2_xy (a α b β : ℝ) :
    polarDist2 a α b β = (a * cos α - b * cos β) ^ 2 + (a * sin α - b * sin β) ^ 2 := by
  unfold polarDist2
  rw [cos_sub]
  have h1 := sin_sq_add_cos_sq α
  have h2 := sin_sq_add_cos_sq β
  linear_combination (-a ^ 2) * h1 - b ^ 2 * h2

/-- The distance in the plane is at least the difference of the distances from the pole. -/
theorem sub_le_polarDist {a α b β : ℝ} (ha : 0 ≤ a) (hb : 0 ≤ b) : |a - b| ≤ √(polarDist2 a α b β) := by
  refine Real.le_sqrt_of_sq_le ?_
  rw [sq_abs]
  unfold polarDist2
  have := mul_nonneg (mul_nonneg ha hb) (sub_nonneg.2 (cos_le_one (α - β)))
  nlinarith

/-- It is at most that difference plus the arc. -/
theorem polarDist_le (a α b β : ℝ) (ha : 0 ≤ a) : √(polarDist2 a α b β) ≤ |a - b| + a * |α - β| := by
  set s := |sin ((α - β) / 2)| with hs
  have h0 : 0 ≤ s := abs_nonneg _
  have h1 : s ≤ 1 := abs_sin_le_one _
  have h2 : 2 * s ≤ |α - β| := by
    have := Real.abs_sin_le_abs (x := (α - β) / 2)
    rw [abs_div, abs_of_pos (by norm_num : (0:ℝ) < 2)] at this
    linarith
  have h3 : cos (α - β) = 1 - 2 * s ^ 2 := by
    have h := cos_two_mul ((α - β) / 2)
    rw [show 2 * ((α - β) / 2) = α - β by ring] at h
    have h' := sin_sq_add_cos_sq ((α - β) / 2)
    rw [hs, sq_abs]
    linarith
  have h4 : √(polarDist2 a α b β) ≤ |a - b| + a * (2 * s) := by
    refine Real.sqrt_le_iff.2 ⟨by positivity, ?_⟩
    unfold polarDist2
    rw [h3]
    have h5 : b * s ≤ |a - b| + a * s := by
      have : (b - a) * s ≤ |a - b| * 1 := by
        rw [abs_sub_comm]
        exact mul_le_mul (le_abs_self _) h1 h0 (abs_nonneg _)
      linarith
    have h6 := mul_le_mul_of_nonneg_left h5 (mul_nonneg ha h0)
    have h7 := sq_abs (a - b)
    nlinarith
  exact h4.trans (by have := mul_le_mul_of_nonneg_left h2 ha; linarith)

/-- C176: with the same radius correction `normal_coord` magnifies all distances in the polar plane by the same factor, the
ratio of the reference radius to the radius of the boundary. -/
theorem C176_similarity (B : Rec) (hB : B.Valid) (lat mlt lat' mlt' : ℝ) (hc : B.rf mlt = B.rf mlt') :
    ∃ L M L' M', normalPt B lat mlt = .ok (L, M, B.rf mlt) ∧ normalPt B lat' mlt' = .ok (L', M', B.rf mlt') ∧
      polarDist2 (colat B.hem L) (hourAngle M) (colat B.hem L') (hourAngle M') =
        ((90 - |B.blat|) / (B.r + B.rf mlt)) ^ 2 *
          polarDist2 (colat B.hem lat) (hourAngle mlt) (colat B.hem lat') (hourAngle mlt') := by
  refine ⟨_, _, _, _, normalPt_ok B lat mlt, normalPt_ok B lat' mlt', ?_⟩
  rw [colat_hem hB, colat_hem hB, polarDist2_xy, polarDist2_xy, hoursOf_cos, hoursOf_cos, hoursOf_sin, hoursOf_sin]
  unfold nX nY Rec.rad
  rw [← hc]
  ring

/-- C176: an error of the input moves the OCB latitude by at most the magnification times the error on the magnetic grid: the
error of the latitude plus the arc made by the error of the local time. -/
theorem C176_latitude (B : Rec) (hB : B.Valid) (lat mlt lat' mlt' L M f L' M' f' : ℝ) (hc : B.rf mlt = B.rf mlt')
    (hp : B.hem * lat ≤ 90) (h : normalPt B lat mlt = .ok (L, M, f)) (h' : normalPt B lat' mlt' = .ok (L', M', f')) :
    |L - L'| ≤ |(90 - |B.blat|) / (B.r + B.rf mlt)| *
      (|lat - lat'| + (90 - B.hem * lat) * |hourAngle mlt - hourAngle mlt'|) := by
  obtain ⟨L₁, M₁, L₁', M₁', e, e', hd⟩ := C176_similarity B hB lat mlt lat' mlt' hc
  rw [h] at e
  rw [h'] at e'
  injection e with e
  injection e' with e'
  simp only [Prod.mk.injEq] at e e'
  obtain ⟨rfl, rfl, -⟩ := e
  obtain ⟨rfl, rfl, -⟩ := e'
  have hq : ∀ u v : ℝ, |colat B.hem u - colat B.hem v| = |u - v| := by
    intro u v
    have : colat B.hem u - colat B.hem v = -(B.hem * (u - v)) := by unfold colat; ring
    rw [this, abs_neg, abs_mul]
    rcases hB.hem with q | q <;> rw [q] <;> simp
  have hn : ∀ {x y X Y F : ℝ}, normalPt B x y = .ok (X, Y, F) → 0 ≤ colat B.hem X := by
    intro x y X Y F q
    rw [normalPt_ok] at q
    injection q with q
    simp only [Prod.mk.injEq] at q
    rw [← q.1, colat_hem hB]
    exact Real.sqrt_nonneg _
  have h1 := sub_le_polarDist (α := hourAngle M) (β := hourAngle M') (hn h) (hn h')
  rw [hq, hd, Real.sqrt_mul (sq_nonneg _), Real.sqrt_sq_eq_abs] at h1
  refine h1.trans (mul_le_mul_of_nonneg_left ?_ (abs_nonneg _))
  have h2 := polarDist_le (colat B.hem lat) (hourAngle mlt) (colat B.hem lat') (hourAngle mlt') (by unfold colat; linarith)
  rw [hq] at h2
  exact h2

/-- One degree of latitude at 18 h, with a magnification of one. -/
example : ∃ L M L' M' : ℝ, normalPt exRec 79 18 = .ok (L, M, 0) ∧ normalPt exRec 78 18 = .ok (L', M', 0) ∧
    |L - L'| ≤ |(90 - |exRec.blat|) / (exRec.r + exRec.rf 18)| *
      (|(79 : ℝ) - 78| + (90 - exRec.hem * 79) * |hourAngle 18 - hourAngle 18|) ∧
    |(90 - |exRec.blat|) / (exRec.r + exRec.rf 18)| = 1 := by
  have h := normalPt_ok exRec 79 18
  have h' := normalPt_ok exRec 78 18
  have hb : |(74 : ℝ)| = 74 := abs_of_pos (by norm_num)
  exact ⟨_, _, _, _, h, h', C176_latitude exRec exRec_valid 79 18 78 18 _ _ _ _ _ _ rfl (by norm_num [exRec]) h h',
    by norm_num [exRec, hb]⟩

/-- C176: of two boundaries with one centre and one reference latitude, the larger one gives every location the same OCB local
time and an OCB latitude nearer to its pole, strictly so except at the centre. -/
theorem C176_larger (B : Rec) (hB : B.Valid) (r' : ℝ) (lat mlt : ℝ) (hr : 0 < B.r + B.rf mlt) (hlt : B.r < r') :
    ∃ L M L', normalPt B lat mlt = .ok (L, M, B.rf mlt) ∧ normalPt { B with r := r' } lat mlt = .ok (L', M, B.rf mlt) ∧
      B.hem * L ≤ B.hem * L' ∧ (B.hem * L = B.hem * L' ↔ distCentre B lat mlt = 0) := by
  obtain ⟨phi, rc, r, rf, hem, blat⟩ := B
  have e' := normalPt_ok ⟨phi, rc, r', rf, hem, blat⟩ lat mlt
  set B : Rec := ⟨phi, rc, r, rf, hem, blat⟩ with hBd
  set D : Rec := ⟨phi, rc, r', rf, hem, blat⟩ with hDd
  have e := normalPt_ok B lat mlt
  have hr1 : 0 < r + rf mlt := hr
  have hr2 : 0 < r' + rf mlt := by have : r < r' := hlt; linarith
  have hc0 : 0 < (r + rf mlt) / (r' + rf mlt) := div_pos hr1 hr2
  have hc1 : (r + rf mlt) / (r' + rf mlt) < 1 := by
    rw [div_lt_one hr2]; have : r < r' := hlt; linarith
  set c := (r + rf mlt) / (r' + rf mlt) with hcd
  have hx : nX D lat mlt = c * nX B lat mlt := by
    simp only [nX, Rec.rad, hBd, hDd, Rec.xc, hcd]; field_simp
  have hy : nY D lat mlt = c * nY B lat mlt := by
    simp only [nY, Rec.rad, hBd, hDd, Rec.yc, hcd]; field_simp
  have hM : hoursOf (nX D lat mlt) (nY D lat mlt) = hoursOf (nX B lat mlt) (nY B lat mlt) := by
    have : atan2 (nY D lat mlt) (nX D lat mlt) = atan2 (nY B lat mlt) (nX B lat mlt) := by
      unfold atan2
      rw [← Complex.arg_real_mul ⟨nX B lat mlt, nY B lat mlt⟩ hc0, hx, hy]
      congr 1
      apply Complex.ext <;> simp
    unfold hoursOf
    rw [this]
  have hs : √(nX D lat mlt ^ 2 + nY D lat mlt ^ 2) = c * √(nX B lat mlt ^ 2 + nY B lat mlt ^ 2) := by
    rw [hx, hy, mul_pow, mul_pow, ← mul_add, Real.sqrt_mul (sq_nonneg _), Real.sqrt_sq hc0.le]
  rw [hM, hs] at e'
  refine ⟨_, _, _, e, e', ?_⟩
  have hh : hem * hem = 1 := hB.hem_sq
  have g0 := Real.sqrt_nonneg (nX B lat mlt ^ 2 + nY B lat mlt ^ 2)
  have hz : √(nX B lat mlt ^ 2 + nY B lat mlt ^ 2) = 0 ↔ distCentre B lat mlt = 0 := by
    have hk : nX B lat mlt ^ 2 + nY B lat mlt ^ 2 =
        ((90 - |blat|) / (r + rf mlt)) ^ 2 * polarDist2 (colat hem lat) (hourAngle mlt) rc (phi * π / 180) := by
      have := dist_sq B lat mlt
      rw [← this]
      simp only [nX, nY, Rec.rad, hBd]
      ring
    have hpos : 0 < (90 - |blat|) / (r + rf mlt) := div_pos (by have := hB.pole; simp only [hBd] at this; linarith) hr1
    rw [hk, Real.sqrt_mul (sq_nonneg _), Real.sqrt_sq hpos.le, mul_eq_zero]
    exact ⟨fun h => h.resolve_left hpos.ne', .inr⟩
  rw [← hz]
  generalize √(nX B lat mlt ^ 2 + nY B lat mlt ^ 2) = ρ at *
  show hem * (hem * (90 - ρ)) ≤ hem * (hem * (90 - c * ρ)) ∧ (hem * (hem * (90 - ρ)) = hem * (hem * (90 - c * ρ)) ↔ ρ = 0)
  rw [← mul_assoc, ← mul_assoc, hh, one_mul, one_mul]
  refine ⟨by nlinarith, fun h => ?_, fun h => by rw [h, mul_zero]⟩
  have : (1 - c) * ρ = 0 := by linarith
  rcases mul_eq_zero.1 this with q | q
  · linarith
  · exact q

example : 0 < exRec.r + exRec.rf 18 ∧ exRec.r < 17 ∧ distCentre exRec 79 18 ≠ 0 := by
  refine ⟨by norm_num [exRec], by norm_num [exRec], ?_⟩
  have h : hourAngle 18 - 90 * π / 180 = π := by unfold hourAngle; ring
  simp only [distCentre, polarDist2, colat, exRec, h, Real.cos_pi]
  rw [Real.sqrt_ne_zero'] ; norm_num

end Ocb.Coord
