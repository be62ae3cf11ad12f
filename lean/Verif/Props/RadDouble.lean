import Mathlib.Analysis.Real.Pi.Bounds
import Verif.Props.TimeDouble

/-!
# `hr2rad` in double precision
-/

set_option autoImplicit false

namespace Ocb.Dbl

open Ocb.Time (fixRange)

theorem dpi : IsDouble piD := ⟨884279719003555, -48, by norm_num, by norm_num, by unfold piD; norm_num⟩

theorem d2pi : IsDouble (2 * piD) := ⟨884279719003555, -47, by norm_num, by norm_num, by unfold piD; norm_num⟩

/-- `numpy.pi` is a little less than pi. -/
theorem piD_bounds : piD ≤ Real.pi ∧ Real.pi ≤ piD + 1 / 2 ^ 52 := by
  have h1 := Real.pi_gt_d20
  have h2 := Real.pi_lt_d20
  unfold piD
  norm_num at h1 h2 ⊢
  constructor <;> linarith

/-- The argument of `fix_range` in `hr2rad`. -/
theorem rad_arg {r : ℝ → ℝ} (hr : Nearest r) {lt : ℝ} (hl : |lt| ≤ 48) :
    |r (r (lt * piD) / 12)| ≤ 14 ∧ |r (r (lt * piD) / 12) - lt * piD / 12| ≤ 1 / 2 ^ 47 := by
  have g := abs_le.1 hl
  have p0 : 3 < piD := by unfold piD; norm_num
  have p1 : piD < 3.2 := by unfold piD; norm_num
  have d160 : IsDouble 160 := by exact_mod_cast isDouble_nat (n := 160) (by norm_num)
  have d14 : IsDouble 14 := by exact_mod_cast isDouble_nat (n := 14) (by norm_num)
  have b0 : |lt * piD| ≤ 160 := by
    rw [abs_mul, abs_of_pos (by linarith : 0 < piD)]
    norm_num at p1
    nlinarith [abs_nonneg lt]
  have b := abs_le.1 b0
  have e1 := abs_le.1 (hr.err (x := lt * piD) (e := -45) (by norm_num) (b0.trans (by norm_num)))
  have c1 : -160 ≤ r (lt * piD) := hr.dbl_le d160.neg b.1
  have c2 : r (lt * piD) ≤ 160 := hr.le_dbl d160 b.2
  have e2 := abs_le.1 (hr.err (x := r (lt * piD) / 12) (e := -49) (by norm_num) (by
    rw [abs_le]; norm_num; constructor <;> linarith))
  norm_num at e1 e2
  constructor
  · exact abs_le.2 ⟨hr.dbl_le d14.neg (by linarith), hr.le_dbl d14 (by linarith)⟩
  · generalize r (r (lt * piD) / 12) = z at *
    generalize r (lt * piD) = y at *
    generalize lt * piD = x at *
    norm_num
    exact abs_le.2 ⟨by linarith, by linarith⟩

/-- `hr2rad` with the range from 0 to 2 pi. -/
theorem hr2rad_full {r : ℝ → ℝ} (hr : Nearest r) (lt : ℝ) (out : Except PyErr ℝ) :
    Hr2rad r lt (2 * piD) out ↔ FixRange r (r (r (lt * piD) / 12)) 0 (2 * piD) none out := by
  unfold Hr2rad
  rw [hr.keep d2pi, sub_self, hr.keep isDouble_zero]

/-- `hr2rad` with the range from -pi to pi. -/
theorem hr2rad_half {r : ℝ → ℝ} (hr : Nearest r) (lt : ℝ) (out : Except PyErr ℝ) :
    Hr2rad r lt piD out ↔ FixRange r (r (r (lt * piD) / 12)) (-piD) piD none out := by
  unfold Hr2rad
  rw [hr.keep d2pi, show piD - 2 * piD = -piD by ring, hr.keep dpi.neg]

/-- C153. `hr2rad` with its default range: there is always a result, between 0 and 2 pi, below 2 pi for hours that are not
negative, and within `2 ^ -46` of the exact angle up to whole turns. -/
theorem C153_full {r : ℝ → ℝ} (hr : Nearest r) {lt : ℝ} (hl : |lt| ≤ 48) :
    ∃ a, (∀ out, Hr2rad r lt (2 * piD) out ↔ out = .ok a) ∧ 0 ≤ a ∧ a ≤ 2 * piD ∧ (0 ≤ lt → a < 2 * piD) ∧
      ∃ k : ℤ, |a - (lt * Real.pi / 12 + k * (2 * Real.pi))| ≤ 2 ^ (-46 : ℤ) := by
  obtain ⟨v1, v2⟩ := rad_arg hr hl
  have p0 : 3 < piD := by unfold piD; norm_num
  have p1 : piD < 4 := by unfold piD; norm_num
  have pb := piD_bounds
  have g := abs_le.1 hl
  generalize hv : r (r (lt * piD) / 12) = v at *
  have dv : IsDouble v := hv ▸ hr.mem _
  obtain ⟨w, f1, f2, f3, k, fk⟩ := Ocb.Time.C01_fix_range_in_interval v 0 (2 * piD) none (by linarith)
    (by rw [Option.getD_none]; linarith) (by rw [Option.getD_none])
  rw [Option.getD_none, sub_zero] at fk
  have ex : ∀ out, FixRange r v 0 (2 * piD) none out ↔ out = .ok (r w) := by
    intro out
    rw [C143_rounded_once hr (E := -47) (n := 884279719003555) (by norm_num) (by rw [Option.getD_none]; unfold piD; norm_num)
      (by rw [Option.getD_none, sub_zero]; exact d2pi) (by rw [Option.getD_none]; linarith) (by rw [Option.getD_none]; linarith)
      isDouble_zero dv (by norm_num; linarith), f1]
    rfl
  have e := abs_le.1 (hr.err (x := w) (e := -50) (by norm_num) (by rw [abs_of_nonneg f2]; norm_num; linarith))
  refine ⟨r w, fun out => ?_, hr.dbl_le isDouble_zero f2, hr.le_dbl d2pi f3.le, fun h0 => ?_, k, ?_⟩
  · rw [hr2rad_full hr, hv]; exact ex out
  · have hfit : (none : Option ℝ).getD (r (2 * piD - 0)) ≤ 2 * piD - 0 := by
      rw [Option.getD_none, sub_zero, hr.keep d2pi]
    refine (C144_closed_partial hr isDouble_zero d2pi hfit ((ex _).2 rfl)).2.2 ?_
    rw [← hv]
    exact hr.dbl_le isDouble_zero (div_nonneg (hr.dbl_le isDouble_zero (by positivity)) (by norm_num))
  · have hk : |(k : ℝ)| ≤ 4 := by
      have a := abs_le.1 v1
      rw [abs_le]
      constructor
      · by_contra hc
        push Not at hc
        have : (k : ℝ) * (2 * piD) ≤ -4 * 6 := by nlinarith
        linarith
      · by_contra hc
        push Not at hc
        have : 4 * 6 ≤ (k : ℝ) * (2 * piD) := by nlinarith
        linarith
    have hk' := abs_le.1 hk
    have a := abs_le.1 v2
    -- the errors made by `numpy.pi` itself
    have t1 : |lt * Real.pi / 12 - lt * piD / 12| ≤ 4 / 2 ^ 52 := by
      rw [← sub_div, ← mul_sub, abs_div, abs_mul, abs_of_nonneg (by linarith : 0 ≤ Real.pi - piD), abs_of_pos (by norm_num : (0 : ℝ) < 12),
        div_le_iff₀ (by norm_num)]
      have : |lt| * (Real.pi - piD) ≤ 48 * (1 / 2 ^ 52) := mul_le_mul hl (by linarith) (by linarith) (by norm_num)
      linarith
    have t2 : |(k : ℝ) * (2 * Real.pi) - k * (2 * piD)| ≤ 8 / 2 ^ 52 := by
      rw [← mul_sub, abs_mul, ← mul_sub, abs_of_nonneg (by linarith : 0 ≤ 2 * (Real.pi - piD))]
      have : |(k : ℝ)| * (2 * (Real.pi - piD)) ≤ 4 * (2 * (1 / 2 ^ 52)) :=
        mul_le_mul hk (by linarith) (by linarith) (by norm_num)
      linarith
    have t1' := abs_le.1 t1
    have t2' := abs_le.1 t2
    generalize lt * Real.pi / 12 = x1 at *
    generalize lt * piD / 12 = x2 at *
    generalize (k : ℝ) * (2 * Real.pi) = x3 at *
    generalize (k : ℝ) * (2 * piD) = x4 at *
    generalize r w = x5 at *
    norm_num at e a t1' t2' ⊢
    exact abs_le.2 ⟨by linarith, by linarith⟩

/-- C153. `hr2rad` with the range from -pi to pi, as `calc_vec_pole_angle` uses it: the result is in the half-open range,
within `2 ^ -46` of the exact angle up to whole turns. -/
theorem C153_half {r : ℝ → ℝ} (hr : Nearest r) {lt : ℝ} (hl : |lt| ≤ 48) :
    ∃ a, (∀ out, Hr2rad r lt piD out ↔ out = .ok a) ∧ -piD ≤ a ∧ a < piD ∧
      ∃ k : ℤ, |a - (lt * Real.pi / 12 + k * (2 * Real.pi))| ≤ 2 ^ (-46 : ℤ) := by
  obtain ⟨v1, v2⟩ := rad_arg hr hl
  have p0 : 3 < piD := by unfold piD; norm_num
  have p1 : piD < 4 := by unfold piD; norm_num
  have pb := piD_bounds
  generalize hv : r (r (lt * piD) / 12) = v at *
  have dv : IsDouble v := hv ▸ hr.mem _
  obtain ⟨w, f1, f2, f3, k, fk⟩ := Ocb.Time.C01_fix_range_in_interval v (-piD) piD none (by linarith)
    (by rw [Option.getD_none]; linarith) (by rw [Option.getD_none])
  rw [Option.getD_none, sub_neg_eq_add, ← two_mul] at fk
  refine ⟨w, fun out => ?_, f2, f3, k, ?_⟩
  · rw [hr2rad_half hr, hv, C143_exact hr (E := -47) (n := 884279719003555) (by norm_num)
      (by rw [Option.getD_none]; unfold piD; norm_num) (by rw [Option.getD_none, sub_neg_eq_add, ← two_mul]; exact d2pi)
      (by rw [Option.getD_none]; linarith) (by rw [Option.getD_none]; linarith) dpi.neg dv (by norm_num; linarith)
      (.inr (by rw [Option.getD_none]; linarith)), f1]
  · have hk : |(k : ℝ)| ≤ 4 := by
      have a := abs_le.1 v1
      rw [abs_le]
      constructor
      · by_contra hc
        push Not at hc
        have : (k : ℝ) * (2 * piD) ≤ -4 * 6 := by nlinarith
        linarith
      · by_contra hc
        push Not at hc
        have : 4 * 6 ≤ (k : ℝ) * (2 * piD) := by nlinarith
        linarith
    have a := abs_le.1 v2
    have t1 : |lt * Real.pi / 12 - lt * piD / 12| ≤ 4 / 2 ^ 52 := by
      rw [← sub_div, ← mul_sub, abs_div, abs_mul, abs_of_nonneg (by linarith : 0 ≤ Real.pi - piD), abs_of_pos (by norm_num : (0 : ℝ) < 12),
        div_le_iff₀ (by norm_num)]
      have : |lt| * (Real.pi - piD) ≤ 48 * (1 / 2 ^ 52) := mul_le_mul hl (by linarith) (by linarith) (by norm_num)
      linarith
    have t2 : |(k : ℝ) * (2 * Real.pi) - k * (2 * piD)| ≤ 8 / 2 ^ 52 := by
      rw [← mul_sub, abs_mul, ← mul_sub, abs_of_nonneg (by linarith : 0 ≤ 2 * (Real.pi - piD))]
      have : |(k : ℝ)| * (2 * (Real.pi - piD)) ≤ 4 * (2 * (1 / 2 ^ 52)) :=
        mul_le_mul hk (by linarith) (by linarith) (by norm_num)
      linarith
    have t1' := abs_le.1 t1
    have t2' := abs_le.1 t2
    generalize lt * Real.pi / 12 = x1 at *
    generalize lt * piD / 12 = x2 at *
    generalize (k : ℝ) * (2 * Real.pi) = x3 at *
    generalize (k : ℝ) * (2 * piD) = x4 at *
    norm_num at a t1' t2' ⊢
    exact abs_le.2 ⟨by linarith, by linarith⟩

/-- C153. The differences of local time for which `calc_vec_pole_angle` has a case of its own give exactly the angles that
it looks for: zero for 0 and whole days, -pi for half a day. -/
theorem C153_special {r : ℝ → ℝ} (hr : Nearest r) : Hr2rad r 0 piD (.ok 0) ∧ Hr2rad r 12 piD (.ok (-piD)) ∧
    Hr2rad r (-12) piD (.ok (-piD)) ∧ Hr2rad r 24 piD (.ok 0) ∧ Hr2rad r (-24) piD (.ok 0) := by
  have p0 : 3 < piD := by unfold piD; norm_num
  have step : ∀ (n : ℤ) (x : ℝ), |n| ≤ 2 → x = n * 12 → r (r (x * piD) / 12) = n * piD ∧ IsDouble (n * piD) := by
    intro n x hn hx
    have hn' := abs_le.1 hn
    have dm : IsDouble (x * piD) := by
      refine ⟨n * (12 * 884279719003555 / 4), -46, ?_, by norm_num, by rw [hx]; unfold piD; push_cast; ring_nf⟩
      rw [abs_mul]
      norm_num
      omega
    have dn : IsDouble (n * piD) := by
      refine ⟨n * 884279719003555, -48, ?_, by norm_num, by unfold piD; push_cast; ring_nf⟩
      rw [abs_mul]
      norm_num
      omega
    have e : x * piD / 12 = n * piD := by rw [hx]; ring
    rw [hr.keep dm, e, hr.keep dn]
    exact ⟨rfl, dn⟩
  have main : ∀ (n : ℤ) (x : ℝ) (k : ℤ), |n| ≤ 2 → x = n * 12 → -1 ≤ n + 2 * k → n + 2 * k < 1 →
      Hr2rad r x piD (.ok ((n + 2 * k : ℤ) * piD)) := by
    intro n x k hn hx h1 h2
    obtain ⟨e, dn⟩ := step n x hn hx
    have h1' : (-1 : ℝ) ≤ ((n + 2 * k : ℤ) : ℝ) := by exact_mod_cast h1
    have h2' : ((n + 2 * k : ℤ) : ℝ) < 1 := by exact_mod_cast h2
    have hb : |(n : ℝ) * piD| ≤ 14 := by
      have : |(n : ℝ)| ≤ 2 := by exact_mod_cast hn
      rw [abs_mul, abs_of_pos (by linarith : 0 < piD)]
      have : piD < 4 := by unfold piD; norm_num
      nlinarith [abs_nonneg (n : ℝ)]
    rw [hr2rad_half hr, e, C143_exact hr (E := -47) (n := 884279719003555) (by norm_num)
      (by rw [Option.getD_none]; unfold piD; norm_num) (by rw [Option.getD_none, sub_neg_eq_add, ← two_mul]; exact d2pi)
      (by rw [Option.getD_none]; linarith) (by rw [Option.getD_none]; linarith) dpi.neg dn (hb.trans (by norm_num))
      (.inr (by rw [Option.getD_none]; linarith))]
    refine (Ocb.Time.C01_fix_range_unique _ _ _ _ (by linarith) k ?_ ?_ ?_).symm
    · push_cast; ring
    · nlinarith
    · nlinarith
  refine ⟨?_, ?_, ?_, ?_, ?_⟩
  · simpa using main 0 0 0 (by norm_num) (by norm_num) (by norm_num) (by norm_num)
  · have := main 1 12 (-1) (by norm_num) (by norm_num) (by norm_num) (by norm_num)
    norm_num at this
    exact this
  · have := main (-1) (-12) 0 (by norm_num) (by norm_num) (by norm_num) (by norm_num)
    norm_num at this
    exact this
  · have := main 2 24 (-1) (by norm_num) (by norm_num) (by norm_num) (by norm_num)
    norm_num at this
    exact this
  · have := main (-2) (-24) 1 (by norm_num) (by norm_num) (by norm_num) (by norm_num)
    norm_num at this
    exact this

example : ∃ a, (∀ out, Hr2rad toDouble (71 / 2) (2 * piD) out ↔ out = .ok a) ∧ 0 ≤ a ∧ a < 2 * piD := by
  obtain ⟨a, h1, h2, -, h3, -⟩ := C153_full toDouble_nearest (lt := 71 / 2) (by rw [abs_of_nonneg (by norm_num)]; norm_num)
  exact ⟨a, h1, h2, h3 (by norm_num)⟩

example : Hr2rad toDouble 12 piD (.ok (-piD)) := (C153_special toDouble_nearest).2.1

/-- C153, refuted: hours just below zero give exactly 2 pi, although the range is said to be half-open. -/
theorem C153_half_open_refuted {r : ℝ → ℝ} (hr : Nearest r) {lt : ℝ} (h0 : lt ≤ -(2 : ℝ) ^ (-1000 : ℤ))
    (h1 : -(2 : ℝ) ^ (-52 : ℤ) ≤ lt) (out : Except PyErr ℝ) : Hr2rad r lt (2 * piD) out ↔ out = .ok (2 * piD) := by
  have p0 : 3 < piD := by unfold piD; norm_num
  have p1 : piD < 4 := by unfold piD; norm_num
  have q1 := two_pos (-1000)
  have q2 := two_pos (-52)
  have a1 : r (lt * piD) ≤ -(2 : ℝ) ^ (-1000 : ℤ) := hr.le_dbl (isDouble_two (by norm_num)).neg (by nlinarith)
  have b1 : -(2 : ℝ) ^ (-50 : ℤ) ≤ r (lt * piD) := by
    refine hr.dbl_le (isDouble_two (by norm_num)).neg ?_
    have : (2 : ℝ) ^ (-50 : ℤ) = 4 * 2 ^ (-52 : ℤ) := by
      rw [show (-50 : ℤ) = 2 + -52 by norm_num, two_add]; norm_num
    nlinarith
  have a2 : r (r (lt * piD) / 12) ≤ -(2 : ℝ) ^ (-1004 : ℤ) := by
    refine hr.le_dbl (isDouble_two (by norm_num)).neg ?_
    have : (2 : ℝ) ^ (-1000 : ℤ) = 16 * 2 ^ (-1004 : ℤ) := by
      rw [show (-1000 : ℤ) = 4 + -1004 by norm_num, two_add]; norm_num
    have := two_pos (-1004)
    rw [div_le_iff₀ (by norm_num)]
    linarith
  have b2 : -(2 : ℝ) ^ (-53 : ℤ) ≤ r (r (lt * piD) / 12) := by
    refine hr.dbl_le (isDouble_two (by norm_num)).neg ?_
    have : (2 : ℝ) ^ (-50 : ℤ) = 8 * 2 ^ (-53 : ℤ) := by
      rw [show (-50 : ℤ) = 3 + -53 by norm_num, two_add]; norm_num
    have := two_pos (-53)
    rw [le_div_iff₀ (by norm_num)]
    linarith
  have q3 := two_pos (-1004)
  rw [hr2rad_full hr]
  generalize hv : r (r (lt * piD) / 12) = v at *
  have dv : IsDouble v := hv ▸ hr.mem _
  have q4 : (2 : ℝ) ^ (-53 : ℤ) < 1 / 2 := by norm_num
  have ab : |v| ≤ (2 : ℝ) ^ (-53 : ℤ) := abs_le.2 ⟨b2, by linarith [two_pos (-53)]⟩
  rw [C143_rounded_once hr (E := -47) (n := 884279719003555) (by norm_num) (by rw [Option.getD_none]; unfold piD; norm_num)
    (by rw [Option.getD_none, sub_zero]; exact d2pi) (by rw [Option.getD_none]; linarith) (by rw [Option.getD_none]; linarith)
    isDouble_zero dv (ab.trans (by norm_num))]
  have e : fixRange v 0 (2 * piD) none = .ok (2 * piD + v) := by
    refine Ocb.Time.C01_fix_range_unique _ _ _ _ (by linarith) 1 ?_ ?_ ?_
    · push_cast; ring
    · have : -(1 / 2) ≤ v := (neg_le_neg q4.le).trans b2
      clear q4 b2 ab
      linarith
    · linarith
  rw [e]
  have : r (2 * piD + v) = 2 * piD := by
    refine hr.absorb (e := -50) d2pi ?_ (ab.trans_lt (by norm_num))
    rw [abs_of_pos (by linarith)]
    norm_num
    linarith
  simp only [Except.map, this]

example : Hr2rad toDouble (-(2 ^ (-60 : ℤ))) (2 * piD) (.ok (2 * piD)) :=
  (C153_half_open_refuted toDouble_nearest (neg_le_neg (two_le (by norm_num))) (neg_le_neg (two_le (by norm_num))) _).2 rfl

end Ocb.Dbl
