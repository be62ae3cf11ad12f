import Mathlib.Analysis.SpecialFunctions.Complex.Arg
import Verif.Lemmas.Basic
import Verif.Lemmas.Time
import Verif.Spec.Coord

/-! # Lemmas about the coordinate transforms -/

set_option autoImplicit false

namespace Ocb.Coord

open Ocb.Time Real

theorem cos_fix (x mn mx : ℝ) : Real.cos (fixVal x mn mx (2 * π)) = Real.cos x := by
  obtain ⟨k, hk⟩ := fixVal_congr x mn mx (2 * π) (by positivity)
  rw [hk, Real.cos_add_int_mul_two_pi]

theorem sin_fix (x mn mx : ℝ) : Real.sin (fixVal x mn mx (2 * π)) = Real.sin x := by
  obtain ⟨k, hk⟩ := fixVal_congr x mn mx (2 * π) (by positivity)
  rw [hk, Real.sin_add_int_mul_two_pi]

theorem atan2_cos (x y : ℝ) : √(x ^ 2 + y ^ 2) * Real.cos (atan2 y x) = x := by
  have := Complex.norm_mul_cos_arg (⟨x, y⟩ : ℂ)
  have h : ‖(⟨x, y⟩ : ℂ)‖ = √(x ^ 2 + y ^ 2) := by
    rw [Complex.norm_def, Complex.normSq_mk]; congr 1; ring
  rwa [h] at this

theorem atan2_sin (x y : ℝ) : √(x ^ 2 + y ^ 2) * Real.sin (atan2 y x) = y := by
  have := Complex.norm_mul_sin_arg (⟨x, y⟩ : ℂ)
  have h : ‖(⟨x, y⟩ : ℂ)‖ = √(x ^ 2 + y ^ 2) := by
    rw [Complex.norm_def, Complex.normSq_mk]; congr 1; ring
  rwa [h] at this

/-- The local time computed for a point of the plane. -/
noncomputable def hoursOf (x y : ℝ) : ℝ := fixVal (degrees (atan2 y x) / 15) 0 24 24

theorem xyHours_ok (x y : ℝ) : xyHours x y = .ok (hoursOf x y) := by
  have h := fixVal_ge (degrees (atan2 y x) / 15) 0 24 24 (by norm_num)
  have h' := fixVal_lt (degrees (atan2 y x) / 15) 0 24 24 (by norm_num) (by norm_num)
  unfold xyHours
  rw [deg2hr_ok]
  show fixRange _ _ _ _ = _
  rw [fixRange_ok (r := 24) (by norm_num) (by norm_num) (by norm_num), fixVal_id h h', hoursOf]

theorem hoursOf_range (x y : ℝ) : 0 ≤ hoursOf x y ∧ hoursOf x y < 24 :=
  ⟨fixVal_ge _ _ _ _ (by norm_num), fixVal_lt _ _ _ _ (by norm_num) (by norm_num)⟩

theorem hourAngle_hoursOf (x y : ℝ) : ∃ k : ℤ, hourAngle (hoursOf x y) = atan2 y x + k * (2 * π) := by
  obtain ⟨k, hk⟩ := fixVal_congr (degrees (atan2 y x) / 15) 0 24 (24 : ℝ) (by norm_num)
  refine ⟨k, ?_⟩
  have hp := pi_pos
  rw [hoursOf, hk, hourAngle, degrees]
  field_simp; ring

theorem hoursOf_cos (x y : ℝ) : √(x ^ 2 + y ^ 2) * Real.cos (hourAngle (hoursOf x y)) = x := by
  obtain ⟨k, hk⟩ := hourAngle_hoursOf x y
  rw [hk, Real.cos_add_int_mul_two_pi, atan2_cos]

theorem hoursOf_sin (x y : ℝ) : √(x ^ 2 + y ^ 2) * Real.sin (hourAngle (hoursOf x y)) = y := by
  obtain ⟨k, hk⟩ := hourAngle_hoursOf x y
  rw [hk, Real.sin_add_int_mul_two_pi, atan2_sin]

theorem angle_eq {a b : ℝ} (hc : Real.cos a = Real.cos b) (hs : Real.sin a = Real.sin b) :
    ∃ k : ℤ, a = b + k * (2 * π) := by
  have h : Real.cos (a - b) = 1 := by
    rw [Real.cos_sub, hc, hs]; nlinarith [Real.sin_sq_add_cos_sq b]
  obtain ⟨k, hk⟩ := (Real.cos_eq_one_iff _).1 h
  exact ⟨k, by linarith⟩

/-- Polar coordinates with a positive radius determine the local time up to whole days. -/
theorem sameHour_of {ρ h h' : ℝ} (hρ : ρ ≠ 0) (hc : ρ * Real.cos (hourAngle h) = ρ * Real.cos (hourAngle h'))
    (hs : ρ * Real.sin (hourAngle h) = ρ * Real.sin (hourAngle h')) : SameHour h h' := by
  obtain ⟨k, hk⟩ := angle_eq (mul_left_cancel₀ hρ hc) (mul_left_cancel₀ hρ hs)
  refine ⟨k, ?_⟩
  have hp := pi_pos
  unfold hourAngle at hk
  field_simp at hk
  linarith

theorem hoursOf_polar {ρ h : ℝ} (hρ : 0 < ρ) :
    SameHour (hoursOf (ρ * Real.cos (hourAngle h)) (ρ * Real.sin (hourAngle h))) h := by
  have e : √((ρ * Real.cos (hourAngle h)) ^ 2 + (ρ * Real.sin (hourAngle h)) ^ 2) = ρ := by
    rw [show (ρ * Real.cos (hourAngle h)) ^ 2 + (ρ * Real.sin (hourAngle h)) ^ 2
      = ρ ^ 2 * (Real.sin (hourAngle h) ^ 2 + Real.cos (hourAngle h) ^ 2) by ring, Real.sin_sq_add_cos_sq, mul_one,
      Real.sqrt_sq hρ.le]
  have h1 := hoursOf_cos (ρ * Real.cos (hourAngle h)) (ρ * Real.sin (hourAngle h))
  have h2 := hoursOf_sin (ρ * Real.cos (hourAngle h)) (ρ * Real.sin (hourAngle h))
  rw [e] at h1 h2
  exact sameHour_of hρ.ne' h1 h2

theorem sqrt_polar (ρ α : ℝ) : √((ρ * Real.cos α) ^ 2 + (ρ * Real.sin α) ^ 2) = |ρ| := by
  rw [show (ρ * Real.cos α) ^ 2 + (ρ * Real.sin α) ^ 2
      = ρ ^ 2 * (Real.sin α ^ 2 + Real.cos α ^ 2) by ring, Real.sin_sq_add_cos_sq, mul_one, Real.sqrt_sq_eq_abs]

/-! ### `normal_coord` in closed form -/

/-- Corrected radius of the boundary at a local time. -/
noncomputable def Rec.rad (B : Rec) (mlt : ℝ) : ℝ := B.r + B.rf mlt

/-- Scaled Cartesian position of `normal_coord`. -/
noncomputable def nX (B : Rec) (lat mlt : ℝ) : ℝ :=
  (colat B.hem lat * Real.cos (hourAngle mlt) - B.xc) * ((90 - |B.blat|) / B.rad mlt)
noncomputable def nY (B : Rec) (lat mlt : ℝ) : ℝ :=
  (colat B.hem lat * Real.sin (hourAngle mlt) - B.yc) * ((90 - |B.blat|) / B.rad mlt)

theorem normalPt_ok (B : Rec) (lat mlt : ℝ) : normalPt B lat mlt =
    .ok (B.hem * (90 - √(nX B lat mlt ^ 2 + nY B lat mlt ^ 2)), hoursOf (nX B lat mlt) (nY B lat mlt), B.rf mlt) := by
  unfold normalPt
  rw [hr2rad_ok]
  simp only [bind, Except.bind, cos_fix, sin_fix, xyHours_ok, pure, Except.pure]
  rfl

theorem dist_sq (B : Rec) (lat mlt : ℝ) :
    (colat B.hem lat * Real.cos (hourAngle mlt) - B.xc) ^ 2 + (colat B.hem lat * Real.sin (hourAngle mlt) - B.yc) ^ 2
      = polarDist2 (colat B.hem lat) (hourAngle mlt) B.rCent (B.phiCent * π / 180) := by
  unfold polarDist2 Rec.xc Rec.yc radians
  rw [Real.cos_sub]
  have h1 := Real.sin_sq_add_cos_sq (hourAngle mlt)
  have h2 := Real.sin_sq_add_cos_sq (B.phiCent * π / 180)
  linear_combination (colat B.hem lat) ^ 2 * h1 + B.rCent ^ 2 * h2

theorem polarDist2_nonneg (a α b β : ℝ) : 0 ≤ polarDist2 a α b β := by
  unfold polarDist2
  have h1 := Real.sin_sq_add_cos_sq (α - β)
  nlinarith [sq_nonneg (a - b * Real.cos (α - β)), sq_nonneg (b * Real.sin (α - β))]

theorem norm_n (B : Rec) (lat mlt : ℝ) :
    √(nX B lat mlt ^ 2 + nY B lat mlt ^ 2) = distCentre B lat mlt * |(90 - |B.blat|) / B.rad mlt| := by
  unfold nX nY distCentre
  rw [mul_pow, mul_pow, ← add_mul, dist_sq, Real.sqrt_mul (polarDist2_nonneg _ _ _ _), Real.sqrt_sq_eq_abs]

theorem revertPt_ok (B : Rec) (a b c : ℝ) : revertPt B a b c =
    .ok (B.hem * (90 - √((colat B.hem a * Real.cos (hourAngle b) * ((B.r + c) / colat B.hem B.blat) + B.xc) ^ 2
        + (colat B.hem a * Real.sin (hourAngle b) * ((B.r + c) / colat B.hem B.blat) + B.yc) ^ 2)),
      hoursOf (colat B.hem a * Real.cos (hourAngle b) * ((B.r + c) / colat B.hem B.blat) + B.xc)
        (colat B.hem a * Real.sin (hourAngle b) * ((B.r + c) / colat B.hem B.blat) + B.yc)) := by
  unfold revertPt
  simp only [xyHours_ok, bind, Except.bind, pure, Except.pure]
  rfl

theorem Rec.Valid.hem_sq {B : Rec} (h : B.Valid) : B.hem * B.hem = 1 := by
  rcases h.hem with h | h <;> rw [h] <;> norm_num

theorem Rec.Valid.hem_blat {B : Rec} (h : B.Valid) : B.hem * B.blat = |B.blat| := by
  have := h.blat
  rcases h.hem with h1 | h1 <;> rw [h1] at this ⊢
  · rw [abs_of_nonneg (by linarith)]; ring
  · rw [abs_of_nonpos (by linarith)]; ring

theorem colat_hem {B : Rec} (h : B.Valid) (ρ : ℝ) : colat B.hem (B.hem * (90 - ρ)) = ρ := by
  unfold colat; rw [← mul_assoc, h.hem_sq]; ring

theorem hem_colat {B : Rec} (h : B.Valid) (lat : ℝ) : B.hem * (90 - colat B.hem lat) = lat := by
  unfold colat; linear_combination lat * h.hem_sq

end Ocb.Coord
