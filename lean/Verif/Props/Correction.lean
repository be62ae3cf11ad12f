import Mathlib.Analysis.SpecialFunctions.Integrals.Basic
import Verif.Model.Correction
import Verif.Lemmas.Time

/-!
# C52: the radius corrections
-/

set_option autoImplicit false

namespace Ocb.Corr

open Ocb.Time Real

/-- The circular correction is the given offset at every local time, NaN included, one value per local time. -/
theorem C52_circular (mlt : List (Option ℝ)) (rAdd : ℝ) : (circular mlt rAdd).length = mlt.length ∧
    ∀ (i : ℕ) (h : i < mlt.length), (circular mlt rAdd)[i]? = some rAdd :=
  ⟨by simp [circular], fun i h => by simp [circular, h]⟩

/-- The angle handed to the formulas differs from the angle of the local time by whole turns. -/
theorem hr2rad_turns (mlt : ℝ) : ∃ k : ℤ, hr2rad mlt (2 * π) = .ok (mlt * π / 12 + k * (2 * π)) := by
  obtain ⟨k, hk⟩ := fixVal_congr (mlt * π / 12) (2 * π - 2 * π) (2 * π) (2 * π) (by positivity)
  exact ⟨k, by rw [hr2rad_ok, hk]⟩

theorem cos_turns (x c : ℝ) (k : ℤ) : cos (x + k * (2 * π) + c) = cos (x + c) := by
  rw [show x + k * (2 * π) + c = x + c + k * (2 * π) by ring, cos_add_int_mul_two_pi]

theorem sin_turns (x c : ℝ) (k : ℤ) : sin (x + k * (2 * π) + c) = sin (x + c) := by
  rw [show x + k * (2 * π) + c = x + c + k * (2 * π) by ring, sin_add_int_mul_two_pi]

theorem cos_turns_mul (x c : ℝ) (k n : ℤ) : cos (n * (x + k * (2 * π) + c)) = cos (n * (x + c)) := by
  rw [show n * (x + k * (2 * π) + c) = n * (x + c) + ((n * k : ℤ) : ℝ) * (2 * π) by push_cast; ring,
    cos_add_int_mul_two_pi]

theorem sin_turns_mul (x c : ℝ) (k n : ℤ) : sin (n * (x + k * (2 * π) + c)) = sin (n * (x + c)) := by
  rw [show n * (x + k * (2 * π) + c) = n * (x + c) + ((n * k : ℤ) : ℝ) * (2 * π) by push_cast; ring,
    sin_add_int_mul_two_pi]

theorem harm_turns (c) (x : ℝ) (k : ℤ) : harmFormula c (x + k * (2 * π)) = harmFormula c x := by
  obtain ⟨c0, ⟨c1, p1⟩, ⟨c2, p2⟩, ⟨c3, p3⟩, ⟨c4, p4⟩, ⟨c5, p5⟩, ⟨c6, p6⟩⟩ := c
  have h2 := fun p => cos_turns_mul x p k 2
  have h2' := fun p => sin_turns_mul x p k 2
  have h3 := fun p => cos_turns_mul x p k 3
  have h3' := fun p => sin_turns_mul x p k 3
  push_cast at h2 h2' h3 h3'
  simp only [harmFormula, cos_turns, sin_turns, h2, h2', h3, h3']

theorem ell_turns (a e t x : ℝ) (k : ℤ) : ellFormula a e t (x + k * (2 * π)) = ellFormula a e t x := by
  unfold ellFormula
  rw [show x + k * (2 * π) - t = x + k * (2 * π) + -t by ring, cos_turns, ← sub_eq_add_neg]

theorem elliptical_eq (lower : String → String) (mlt : ℝ) (i m : String) (a e t : ℝ) (hi : lower i = "ampere")
    (hc : ellCoeff (lower m) = some (a, e, t)) :
    elliptical lower mlt i m = .ok (ellFormula a e t (mlt * π / 12)) := by
  obtain ⟨k, hk⟩ := hr2rad_turns mlt
  unfold elliptical
  rw [if_neg (by simpa using hi), hc]
  simp only [hk, bind, Except.bind, pure, Except.pure, ell_turns]

theorem harmonic_eq (lower : String → String) (mlt : ℝ) (i m : String) (c) (hc : harmCoeff (lower i) (lower m) = some c) :
    harmonic lower mlt i m = .ok (harmFormula c (mlt * π / 12)) := by
  obtain ⟨k, hk⟩ := hr2rad_turns mlt
  unfold harmonic
  rw [hc]
  simp only [hk, bind, Except.bind, pure, Except.pure, harm_turns]

/-- Both corrections are the same a day later, for every instrument and method, errors included. -/
theorem C52_periodic (lower : String → String) (mlt : ℝ) (i m : String) :
    elliptical lower (mlt + 24) i m = elliptical lower mlt i m ∧
    harmonic lower (mlt + 24) i m = harmonic lower mlt i m := by
  have hx : (mlt + 24) * π / 12 = mlt * π / 12 + (1 : ℤ) * (2 * π) := by push_cast; ring
  constructor
  · by_cases hi : lower i = "ampere"
    · cases hc : ellCoeff (lower m) with
      | none => simp [elliptical, hi, hc]
      | some c =>
        obtain ⟨a, e, t⟩ := c
        rw [elliptical_eq lower _ i m a e t hi hc, elliptical_eq lower _ i m a e t hi hc, hx, ell_turns]
    · simp [elliptical, hi]
  · cases hc : harmCoeff (lower i) (lower m) with
    | none => simp [harmonic, hc]
    | some c => rw [harmonic_eq lower _ i m c hc, harmonic_eq lower _ i m c hc, hx, harm_turns]

/-- The documented parameters of the ellipses. -/
def EllipseOf (method : String) (a e t : ℝ) : Prop :=
  (method = "median" ∧ a = 4.01 ∧ e = 0.55 ∧ t = -0.92) ∨ (method = "gaussian" ∧ a = 4.41 ∧ e = 0.51 ∧ t = -0.95)

theorem ellCoeff_of {m : String} {a e t : ℝ} (h : EllipseOf m a e t) : ellCoeff m = some (a, e, t) := by
  rcases h with ⟨rfl, rfl, rfl, rfl⟩ | ⟨rfl, rfl, rfl, rfl⟩ <;> simp [ellCoeff]

theorem ellipse_bounds {m : String} {a e t : ℝ} (h : EllipseOf m a e t) : 0 < a ∧ 0 < e ∧ e < 1 := by
  rcases h with ⟨-, rfl, rfl, -⟩ | ⟨-, rfl, rfl, -⟩ <;> norm_num

/-- The elliptical correction is poleward, lies between the two apses, reaches both, and the curve it describes around
the pole is an ellipse: the distances from the pole and from the point `2 a e` away from it towards `t + π` add up to
`2 a`. -/
theorem C52_elliptical (lower : String → String) (i m : String) (a e t : ℝ) (hi : lower i = "ampere")
    (hm : EllipseOf (lower m) a e t) :
    (∀ mlt, ∃ r, elliptical lower mlt i m = .ok r ∧ r < 0 ∧ -(a * (1 + e)) ≤ r ∧ r ≤ -(a * (1 - e)) ∧
      (let θ := mlt * π / 12
       √((-r * cos θ) ^ 2 + (-r * sin θ) ^ 2) +
         √((-r * cos θ + 2 * a * e * cos t) ^ 2 + (-r * sin θ + 2 * a * e * sin t) ^ 2) = 2 * a)) ∧
    (∃ mlt, elliptical lower mlt i m = .ok (-(a * (1 - e)))) ∧
    (∃ mlt, elliptical lower mlt i m = .ok (-(a * (1 + e)))) := by
  obtain ⟨ha, he, he1⟩ := ellipse_bounds hm
  have hc := ellCoeff_of hm
  refine ⟨fun mlt => ⟨_, elliptical_eq lower mlt i m a e t hi hc, ?_⟩, ⟨t * 12 / π, ?_⟩, ⟨(t + π) * 12 / π, ?_⟩⟩
  · unfold ellFormula
    set θ := mlt * π / 12
    set c := cos (θ - t) with hcd
    have hc1 : c ≤ 1 := cos_le_one _
    have hc2 : -1 ≤ c := neg_one_le_cos _
    have hden : 0 < 1 + e * c := by nlinarith
    set ρ := a * (1 - e ^ 2) / (1 + e * c) with hρ
    have hmul : ρ * (1 + e * c) = a * (1 - e ^ 2) := div_mul_cancel₀ _ hden.ne'
    have hρ0 : 0 < ρ := div_pos (mul_pos ha (by nlinarith)) hden
    have hup : ρ ≤ a * (1 + e) := by
      rw [hρ, div_le_iff₀ hden]
      nlinarith [mul_pos ha he, mul_nonneg (mul_nonneg ha.le he.le) (by linarith : 0 ≤ 1 + c), mul_nonneg (mul_nonneg (mul_nonneg ha.le he.le) he.le) (by linarith : 0 ≤ 1 + c)]
    have hlo : a * (1 - e) ≤ ρ := by
      rw [hρ, le_div_iff₀ hden]
      nlinarith [mul_nonneg (mul_nonneg (mul_nonneg ha.le he.le) (by linarith : 0 ≤ 1 - e)) (by linarith : 0 ≤ 1 - c)]
    refine ⟨by linarith, by linarith, by linarith, ?_⟩
    have e1 : (-(-ρ) * cos θ) ^ 2 + (-(-ρ) * sin θ) ^ 2 = ρ ^ 2 := by
      rw [neg_neg]; nlinarith [sin_sq_add_cos_sq θ]
    have e2 : (-(-ρ) * cos θ + 2 * a * e * cos t) ^ 2 + (-(-ρ) * sin θ + 2 * a * e * sin t) ^ 2 = (2 * a - ρ) ^ 2 := by
      have hcc : c = cos θ * cos t + sin θ * sin t := by rw [hcd, cos_sub]
      have : (ρ * cos θ + 2 * a * e * cos t) ^ 2 + (ρ * sin θ + 2 * a * e * sin t) ^ 2 =
          ρ ^ 2 * (sin θ ^ 2 + cos θ ^ 2) + 4 * a * e * ρ * (cos θ * cos t + sin θ * sin t) +
            4 * a ^ 2 * e ^ 2 * (sin t ^ 2 + cos t ^ 2) := by ring
      rw [neg_neg, this, sin_sq_add_cos_sq, sin_sq_add_cos_sq, ← hcc]
      linear_combination 4 * a * hmul
    show √((-(-ρ) * cos θ) ^ 2 + (-(-ρ) * sin θ) ^ 2) +
         √((-(-ρ) * cos θ + 2 * a * e * cos t) ^ 2 + (-(-ρ) * sin θ + 2 * a * e * sin t) ^ 2) = 2 * a
    rw [e1, e2, sqrt_sq hρ0.le, sqrt_sq (by nlinarith)]
    ring
  · rw [elliptical_eq lower _ i m a e t hi hc, ellFormula]
    have : t * 12 / π * π / 12 - t = 0 := by field_simp; ring
    rw [this, cos_zero]
    congr 1
    have : (1 + e * 1 : ℝ) ≠ 0 := by linarith
    field_simp
    ring
  · rw [elliptical_eq lower _ i m a e t hi hc, ellFormula]
    have : (t + π) * 12 / π * π / 12 - t = π := by field_simp; ring
    rw [this, cos_pi]
    congr 1
    have : (1 + e * -1 : ℝ) ≠ 0 := by linarith
    rw [neg_inj, div_eq_iff this]
    ring

/-- Both methods are met, in any spelling that `lower` maps to the documented one. -/
example : EllipseOf "median" 4.01 0.55 (-0.92) ∧ EllipseOf "gaussian" 4.41 0.51 (-0.95) := by simp [EllipseOf]

/-- The documented instruments and methods of `harmonic`. -/
def HarmonicFor (i m : String) : Prop :=
  i = "ampere" ∧ (m = "median" ∨ m = "gaussian") ∨ (i = "si12" ∨ i = "si13" ∨ i = "wic") ∧ (m = "ocb" ∨ m = "eab")

theorem harmCoeff_iff (i m : String) : (∃ c, harmCoeff i m = some c) ↔ HarmonicFor i m := by
  unfold HarmonicFor
  constructor
  · rintro ⟨c, hc⟩
    unfold harmCoeff at hc
    split_ifs at hc <;> simp_all
  · rintro (⟨rfl, rfl | rfl⟩ | ⟨rfl | rfl | rfl, rfl | rfl⟩) <;> exact ⟨_, by simp [harmCoeff]; rfl⟩

/-- A value is returned exactly for the documented instruments and methods; everything else raises ValueError. -/
theorem C52_defined (lower : String → String) (mlt : ℝ) (i m : String) :
    ((∃ r, elliptical lower mlt i m = .ok r) ↔ lower i = "ampere" ∧ (lower m = "median" ∨ lower m = "gaussian")) ∧
    ((∃ r, harmonic lower mlt i m = .ok r) ↔ HarmonicFor (lower i) (lower m)) ∧
    (∀ err, elliptical lower mlt i m = .error err ∨ harmonic lower mlt i m = .error err → err = .valueError) := by
  have hell : ∀ s, (∃ c, ellCoeff s = some c) ↔ s = "median" ∨ s = "gaussian" := by
    intro s
    unfold ellCoeff
    split_ifs with h1 h2 <;> simp [*]
  have hval : ∀ err, elliptical lower mlt i m = .error err → err = .valueError := by
    intro err h
    unfold elliptical at h
    split_ifs at h with hi
    · exact (Except.error.inj h).symm
    · cases hc : ellCoeff (lower m) with
      | none => rw [hc] at h; exact (Except.error.inj h).symm
      | some c =>
        obtain ⟨k, hk⟩ := hr2rad_turns mlt
        rw [hc] at h
        simp only [hk, bind, Except.bind, pure, Except.pure] at h
        cases h
  have hval' : ∀ err, harmonic lower mlt i m = .error err → err = .valueError := by
    intro err h
    cases hc : harmCoeff (lower i) (lower m) with
    | none => unfold harmonic at h; rw [hc] at h; exact (Except.error.inj h).symm
    | some c => rw [harmonic_eq lower mlt i m c hc] at h; cases h
  refine ⟨⟨?_, ?_⟩, ⟨?_, ?_⟩, fun err h => h.elim (hval err) (hval' err)⟩
  · rintro ⟨r, hr⟩
    by_cases hi : lower i = "ampere"
    · refine ⟨hi, (hell _).1 ?_⟩
      cases hc : ellCoeff (lower m) with
      | none => simp [elliptical, hi, hc] at hr
      | some c => exact ⟨c, rfl⟩
    · simp [elliptical, hi] at hr
  · rintro ⟨hi, hm⟩
    obtain ⟨⟨a, e, t⟩, hc⟩ := (hell _).2 hm
    exact ⟨_, elliptical_eq lower mlt i m a e t hi hc⟩
  · rintro ⟨r, hr⟩
    rw [← harmCoeff_iff]
    cases hc : harmCoeff (lower i) (lower m) with
    | none => simp [harmonic, hc] at hr
    | some c => exact ⟨c, rfl⟩
  · intro h
    obtain ⟨c, hc⟩ := (harmCoeff_iff _ _).2 h
    exact ⟨_, harmonic_eq lower mlt i m c hc⟩

theorem mul_cos_le (c x : ℝ) : |c * cos x| ≤ |c| := by
  rw [abs_mul]; exact mul_le_of_le_one_right (abs_nonneg _) (abs_cos_le_one x)

theorem mul_sin_le (c x : ℝ) : |c * sin x| ≤ |c| := by
  rw [abs_mul]; exact mul_le_of_le_one_right (abs_nonneg _) (abs_sin_le_one x)

/-- The mean over a day of a harmonic of order `n`. -/
theorem int_cos (n : ℕ) (hn : 0 < n) (p : ℝ) : ∫ x in (0 : ℝ)..24, cos (n * (x * π / 12 + p)) = 0 := by
  have hn' : (n : ℝ) ≠ 0 := by exact_mod_cast hn.ne'
  have h : (fun x : ℝ => cos (n * (x * π / 12 + p))) = fun x => cos ((n * π / 12) * x + n * p) := by
    funext x; congr 1; ring
  have hne : (n * π / 12 : ℝ) ≠ 0 := by positivity
  rw [h, intervalIntegral.integral_comp_mul_add (f := cos) hne, integral_cos,
    show n * π / 12 * 24 + n * p = n * p + n * (2 * π) by ring, sin_add_nat_mul_two_pi]
  simp

theorem int_sin (n : ℕ) (hn : 0 < n) (p : ℝ) : ∫ x in (0 : ℝ)..24, sin (n * (x * π / 12 + p)) = 0 := by
  have hn' : (n : ℝ) ≠ 0 := by exact_mod_cast hn.ne'
  have h : (fun x : ℝ => sin (n * (x * π / 12 + p))) = fun x => sin ((n * π / 12) * x + n * p) := by
    funext x; congr 1; ring
  have hne : (n * π / 12 : ℝ) ≠ 0 := by positivity
  rw [h, intervalIntegral.integral_comp_mul_add (f := sin) hne, integral_sin,
    show n * π / 12 * 24 + n * p = n * p + n * (2 * π) by ring, cos_add_nat_mul_two_pi]
  simp

/-- The harmonic correction stays within the sum of its six amplitudes of its constant term, and the constant term is
its mean over a day. -/
theorem C52_harmonic (lower : String → String) (i m : String) (c0 c1 c2 c3 c4 c5 c6 p1 p2 p3 p4 p5 p6 : ℝ)
    (hc : harmCoeff (lower i) (lower m) =
      some (c0, (c1, p1), (c2, p2), (c3, p3), (c4, p4), (c5, p5), (c6, p6))) :
    ∃ r : ℝ → ℝ, (∀ mlt, harmonic lower mlt i m = .ok (r mlt)) ∧
      (∀ mlt, |r mlt + c0| ≤ |c1| + |c2| + |c3| + |c4| + |c5| + |c6|) ∧
      (∫ mlt in (0 : ℝ)..24, r mlt) / 24 = -c0 := by
  refine ⟨_, fun mlt => harmonic_eq lower mlt i m _ hc, fun mlt => ?_, ?_⟩
  · simp only [harmFormula]
    set x := mlt * π / 12
    have h1 := abs_le.1 (mul_cos_le c1 (x + p1))
    have h2 := abs_le.1 (mul_sin_le c2 (x + p2))
    have h3 := abs_le.1 (mul_cos_le c3 (2 * (x + p3)))
    have h4 := abs_le.1 (mul_sin_le c4 (2 * (x + p4)))
    have h5 := abs_le.1 (mul_cos_le c5 (3 * (x + p5)))
    have h6 := abs_le.1 (mul_sin_le c6 (3 * (x + p6)))
    rw [abs_le]
    constructor <;> linarith
  · have h1 := int_cos 1 one_pos p1
    have h2 := int_sin 1 one_pos p2
    have h3 := int_cos 2 two_pos p3
    have h4 := int_sin 2 two_pos p4
    have h5 := int_cos 3 three_pos p5
    have h6 := int_sin 3 three_pos p6
    push_cast at h1 h2 h3 h4 h5 h6
    simp only [one_mul] at h1 h2
    simp only [harmFormula]
    have ic : ∀ (c n p : ℝ), IntervalIntegrable (fun x : ℝ => c * cos (n * (x * π / 12 + p))) MeasureTheory.volume 0 24 :=
      fun c n p => Continuous.intervalIntegrable (by fun_prop) _ _
    have is : ∀ (c n p : ℝ), IntervalIntegrable (fun x : ℝ => c * sin (n * (x * π / 12 + p))) MeasureTheory.volume 0 24 :=
      fun c n p => Continuous.intervalIntegrable (by fun_prop) _ _
    have ic1 : ∀ (c p : ℝ), IntervalIntegrable (fun x : ℝ => c * cos (x * π / 12 + p)) MeasureTheory.volume 0 24 :=
      fun c p => Continuous.intervalIntegrable (by fun_prop) _ _
    have is1 : ∀ (c p : ℝ), IntervalIntegrable (fun x : ℝ => c * sin (x * π / 12 + p)) MeasureTheory.volume 0 24 :=
      fun c p => Continuous.intervalIntegrable (by fun_prop) _ _
    have i0 : IntervalIntegrable (fun _ : ℝ => c0) MeasureTheory.volume 0 24 := intervalIntegrable_const
    have j1 := i0.add (ic1 c1 p1)
    have j2 := j1.add (is1 c2 p2)
    have j3 := j2.add (ic c3 2 p3)
    have j4 := j3.add (is c4 2 p4)
    have j5 := j4.add (ic c5 3 p5)
    rw [intervalIntegral.integral_neg]
    have e6 := intervalIntegral.integral_add j5 (is c6 3 p6)
    have e5 := intervalIntegral.integral_add j4 (ic c5 3 p5)
    have e4 := intervalIntegral.integral_add j3 (is c4 2 p4)
    have e3 := intervalIntegral.integral_add j2 (ic c3 2 p3)
    have e2 := intervalIntegral.integral_add j1 (is1 c2 p2)
    have e1 := intervalIntegral.integral_add i0 (ic1 c1 p1)
    simp only [intervalIntegral.integral_const_mul, h1, h2, h3, h4, h5, h6, mul_zero, add_zero,
      intervalIntegral.integral_const, smul_eq_mul] at e1 e2 e3 e4 e5 e6
    have := e6.trans (e5.trans (e4.trans (e3.trans (e2.trans e1))))
    rw [this]
    ring

/-- The coefficients exist for every documented case, for instance SI12 and OCB. -/
example : HarmonicFor "si12" "ocb" ∧ ∃ c, harmCoeff "si12" "ocb" = some c :=
  ⟨by simp [HarmonicFor], (harmCoeff_iff _ _).2 (by simp [HarmonicFor])⟩

/-- Mean correction and largest deviation from it, by instrument and method, in units of 10⁻⁸ degrees. -/
def harmTable : List (String × String × ℤ × ℤ) :=
  [("ampere", "median", -331000535, 617605614), ("ampere", "gaussian", -380100827, 663969409),
   ("si12", "ocb", -4050000, 302520000), ("si12", "eab", 14470000, 646530000),
   ("si13", "ocb", -57970000, 190010000), ("si13", "eab", -25000000, 535600000),
   ("wic", "ocb", -102980000, 266380000), ("wic", "eab", 49350000, 332410000)]

/-- The mean over a day and a bound for the deviation from it, for every documented instrument and method. -/
theorem C52_harmonic_table (lower : String → String) (i m : String) (mean dev : ℤ)
    (h : (lower i, lower m, mean, dev) ∈ harmTable) :
    ∃ r : ℝ → ℝ, (∀ mlt, harmonic lower mlt i m = .ok (r mlt)) ∧
      (∀ mlt, |r mlt - (mean : ℝ) / 10 ^ 8| ≤ (dev : ℝ) / 10 ^ 8) ∧ (∫ mlt in (0 : ℝ)..24, r mlt) / 24 = mean / 10 ^ 8 := by
  have key : ∀ (c0 c1 c2 c3 c4 c5 c6 p1 p2 p3 p4 p5 p6 : ℝ), harmCoeff (lower i) (lower m) =
      some (c0, (c1, p1), (c2, p2), (c3, p3), (c4, p4), (c5, p5), (c6, p6)) → -c0 = mean / 10 ^ 8 →
      |c1| + |c2| + |c3| + |c4| + |c5| + |c6| ≤ dev / 10 ^ 8 →
      ∃ r : ℝ → ℝ, (∀ mlt, harmonic lower mlt i m = .ok (r mlt)) ∧
      (∀ mlt, |r mlt - (mean : ℝ) / 10 ^ 8| ≤ (dev : ℝ) / 10 ^ 8) ∧ (∫ mlt in (0 : ℝ)..24, r mlt) / 24 = mean / 10 ^ 8 := by
    intro c0 c1 c2 c3 c4 c5 c6 p1 p2 p3 p4 p5 p6 hc h0 hd
    obtain ⟨r, h1, h2, h3⟩ := C52_harmonic lower i m c0 c1 c2 c3 c4 c5 c6 p1 p2 p3 p4 p5 p6 hc
    refine ⟨r, h1, fun mlt => ?_, by rw [h3, h0]⟩
    rw [← h0, sub_neg_eq_add]
    exact (h2 mlt).trans hd
  simp only [harmTable, List.mem_cons, Prod.mk.injEq, List.not_mem_nil, or_false] at h
  rcases h with ⟨hi, hm, rfl, rfl⟩ | ⟨hi, hm, rfl, rfl⟩ | ⟨hi, hm, rfl, rfl⟩ | ⟨hi, hm, rfl, rfl⟩ |
    ⟨hi, hm, rfl, rfl⟩ | ⟨hi, hm, rfl, rfl⟩ | ⟨hi, hm, rfl, rfl⟩ | ⟨hi, hm, rfl, rfl⟩ <;>
  · refine key _ _ _ _ _ _ _ _ _ _ _ _ _ (by rw [hi, hm]; simp only [harmCoeff, reduceIte, String.reduceEq]; rfl) ?_ ?_
    · norm_num
    · simp only [abs_neg, abs_zero]
      norm_num [abs_of_pos, abs_of_neg]

/-- The published fits by instrument and method, in units of 10⁻⁸: the mean shift in degrees and, for each order, the
amplitude and phase of the cosine and of the sine. -/
def published : List (String × String × ℤ × List (ℤ × ℤ × ℤ × ℤ)) := [
   ("ampere", "median", 331000535,
     [(-54529340, -124389141, 242619653, -66677988), (-103467488, -30763009, 52426756, 4359299), (60201848, 50618522, 104360529, 25186405)]),
   ("ampere", "gaussian", 380100827,
     [(98555723, -343760943, 185084271, -36730751), (-81975654, -102823832, 130637288, -53599218), (40380183, -122462708, -127336290, -62743381)]),
   ("si12", "ocb", 4050000,
     [(-150780000, 100000000, 50950000, 100000000), (93710000, 100000000, 7080000, 100000000), (0, 100000000, 0, 100000000)]),
   ("si12", "eab", -14470000,
     [(-197790000, 100000000, 267990000, 100000000), (57780000, 100000000, -122970000, 100000000), (0, 100000000, 0, 100000000)]),
   ("si13", "ocb", 57970000,
     [(-68370000, 100000000, -50200000, 100000000), (29710000, 100000000, -41730000, 100000000), (0, 100000000, 0, 100000000)]),
   ("si13", "eab", 25000000,
     [(-299310000, 100000000, 88180000, 100000000), (85110000, 100000000, -63000000, 100000000), (0, 100000000, 0, 100000000)]),
   ("wic", "ocb", 102980000,
     [(-112490000, 100000000, -73800000, 100000000), (18380000, 100000000, -61710000, 100000000), (0, 100000000, 0, 100000000)]),
   ("wic", "eab", -49350000,
     [(-211860000, 100000000, 31880000, 100000000), (57490000, 100000000, -31180000, 100000000), (0, 100000000, 0, 100000000)])]

/-- The sum of the terms of the orders from `n` on, at the angle `θ`. -/
noncomputable def series (θ : ℝ) : ℕ → List (ℤ × ℤ × ℤ × ℤ) → ℝ
  | _, [] => 0
  | n, (a, p, b, q) :: l =>
    a / 10 ^ 8 * cos (n * (θ + p / 10 ^ 8)) + b / 10 ^ 8 * sin (n * (θ + q / 10 ^ 8)) + series θ (n + 1) l

/-- The correction is minus the published poleward shift, at every local time. -/
theorem C52_harmonic_published (lower : String → String) (mlt : ℝ) (i m : String) (mean : ℤ)
    (l : List (ℤ × ℤ × ℤ × ℤ)) (h : (lower i, lower m, mean, l) ∈ published) :
    harmonic lower mlt i m = .ok (-(mean / 10 ^ 8 + series (mlt * π / 12) 1 l)) := by
  have key : ∀ (c : ℝ × (ℝ × ℝ) × (ℝ × ℝ) × (ℝ × ℝ) × (ℝ × ℝ) × (ℝ × ℝ) × (ℝ × ℝ)) (m0 a1 s1 b1 t1 a2 s2 b2 t2 a3 s3 b3 t3 : ℤ),
      harmCoeff (lower i) (lower m) = some c →
      c = ((m0 : ℝ) / 10 ^ 8, ((a1 : ℝ) / 10 ^ 8, (s1 : ℝ) / 10 ^ 8), ((b1 : ℝ) / 10 ^ 8, (t1 : ℝ) / 10 ^ 8),
        ((a2 : ℝ) / 10 ^ 8, (s2 : ℝ) / 10 ^ 8), ((b2 : ℝ) / 10 ^ 8, (t2 : ℝ) / 10 ^ 8),
        ((a3 : ℝ) / 10 ^ 8, (s3 : ℝ) / 10 ^ 8), ((b3 : ℝ) / 10 ^ 8, (t3 : ℝ) / 10 ^ 8)) →
      harmonic lower mlt i m =
        .ok (-(m0 / 10 ^ 8 + series (mlt * π / 12) 1 [(a1, s1, b1, t1), (a2, s2, b2, t2), (a3, s3, b3, t3)])) := by
    intro c m0 a1 s1 b1 t1 a2 s2 b2 t2 a3 s3 b3 t3 hc e
    subst e
    rw [harmonic_eq lower mlt i m _ hc]
    simp only [harmFormula, series, Nat.cast_one, one_mul, Nat.cast_ofNat, Nat.reduceAdd, add_zero]
    congr 1
    ring
  simp only [published, List.mem_cons, Prod.mk.injEq, List.not_mem_nil, or_false] at h
  rcases h with ⟨hi, hm, rfl, rfl⟩ | ⟨hi, hm, rfl, rfl⟩ | ⟨hi, hm, rfl, rfl⟩ | ⟨hi, hm, rfl, rfl⟩ |
    ⟨hi, hm, rfl, rfl⟩ | ⟨hi, hm, rfl, rfl⟩ | ⟨hi, hm, rfl, rfl⟩ | ⟨hi, hm, rfl, rfl⟩ <;>
  · refine key _ _ _ _ _ _ _ _ _ _ _ _ _ _ (by rw [hi, hm]; simp only [harmCoeff, reduceIte, String.reduceEq]; rfl) ?_
    norm_num

/-- The documented cases are the published ones. -/
example (i m : String) : HarmonicFor i m ↔ ∃ mean l, (i, m, mean, l) ∈ published := by
  simp only [published, List.mem_cons, Prod.mk.injEq, List.not_mem_nil, or_false, HarmonicFor]
  constructor
  · rintro (⟨rfl, rfl | rfl⟩ | ⟨rfl | rfl | rfl, rfl | rfl⟩) <;> simp
  · rintro ⟨_, _, h⟩
    rcases h with ⟨rfl, rfl, -⟩ | ⟨rfl, rfl, -⟩ | ⟨rfl, rfl, -⟩ | ⟨rfl, rfl, -⟩ | ⟨rfl, rfl, -⟩ | ⟨rfl, rfl, -⟩ |
      ⟨rfl, rfl, -⟩ | ⟨rfl, rfl, -⟩ <;> simp

end Ocb.Corr
