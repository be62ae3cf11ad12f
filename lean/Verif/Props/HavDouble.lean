import Mathlib.Analysis.SpecialFunctions.Trigonometric.Inverse
import Mathlib.Analysis.Real.Pi.Irrational
import Verif.Model.HavDouble
import Verif.Props.CoordDouble

/-!
# C189: the haversine and its inverse in double precision
-/

set_option autoImplicit false

namespace Ocb.Dbl

open Ocb.Coord

/-! ### doubles near one -/

theorem isDouble_rat {x : ℝ} (h : IsDouble x) : ∃ q : ℚ, (q : ℝ) = x := by
  obtain ⟨m, e, -, -, rfl⟩ := h
  exact ⟨m * 2 ^ e, by push_cast; rfl⟩

theorem dbl_grid {x : ℝ} (h : IsDouble x) {e : ℤ} (hx : 2 ^ (e + 52) ≤ |x|) : ∃ k : ℤ, x = k * 2 ^ e := by
  obtain ⟨m, f, hm, -, rfl⟩ := h
  have h1 : e ≤ f := by
    by_contra hc
    have h2 : f ≤ e - 1 := by omega
    have h3 : |(m : ℝ)| < 2 ^ 53 := by exact_mod_cast hm
    rw [abs_mul, abs_of_pos (two_pos f)] at hx
    have h4 : |(m : ℝ)| * 2 ^ f < 2 ^ 53 * 2 ^ (e - 1) :=
      lt_of_le_of_lt (mul_le_mul_of_nonneg_left (two_le h2) (abs_nonneg _)) (mul_lt_mul_of_pos_right h3 (two_pos _))
    have h5 : (2 : ℝ) ^ 53 * 2 ^ (e - 1) = 2 ^ (e + 52) := by
      rw [show e + 52 = (53 : ℤ) + (e - 1) by ring, two_add]
      norm_num
    linarith
  exact regrid h1 m

theorem dbl_above_one {x : ℝ} (h : IsDouble x) (hx : |x| < 1 + 1 / 2 ^ 52) : |x| ≤ 1 := by
  by_contra hc
  push Not at hc
  obtain ⟨k, rfl⟩ := dbl_grid h (e := -52) (by norm_num; exact hc.le)
  rw [abs_mul, abs_of_pos (two_pos _)] at hc hx
  have h1 : (2 : ℝ) ^ (-52 : ℤ) = 1 / 2 ^ 52 := by norm_num
  rw [h1] at hc hx
  have h2 : (2 ^ 52 : ℝ) < ((|k| : ℤ) : ℝ) := by push_cast; norm_num at hc ⊢; linarith
  have h3 : ((|k| : ℤ) : ℝ) < 2 ^ 52 + 1 := by push_cast; norm_num at hx ⊢; linarith
  have h4 : (2 ^ 52 : ℤ) < |k| := by exact_mod_cast h2
  have h5 : |k| < 2 ^ 52 + 1 := by exact_mod_cast h3
  omega

theorem dbl_below_one {x : ℝ} (h : IsDouble x) (hx : x < 1) : x ≤ 1 - 1 / 2 ^ 53 := by
  rcases lt_or_ge x (1 / 2) with h1 | h1
  · exact h1.le.trans (by norm_num)
  · obtain ⟨k, rfl⟩ := dbl_grid h (e := -53) (by norm_num at h1 ⊢; exact h1.trans (le_abs_self _))
    have h2 : (2 : ℝ) ^ (-53 : ℤ) = 1 / 2 ^ 53 := by norm_num
    rw [h2] at hx ⊢
    have h3 : (k : ℝ) < 2 ^ 53 := by norm_num at hx ⊢; linarith
    have h4 : k < 2 ^ 53 := by exact_mod_cast h3
    have h5 : k ≤ 2 ^ 53 - 1 := by omega
    have h6 : (k : ℝ) ≤ 2 ^ 53 - 1 := by exact_mod_cast h5
    norm_num at h6 ⊢
    linarith

/-- A sine of a rational number is not 1 or -1. -/
theorem sin_lt_one {x : ℝ} (h : IsDouble x) : |Real.sin x| < 1 := by
  refine lt_of_le_of_ne (Real.abs_sin_le_one x) fun hc => ?_
  have h1 : Real.cos x = 0 := by
    have := Real.sin_sq_add_cos_sq x
    rw [← sq_abs, hc] at this
    nlinarith
  obtain ⟨k, hk⟩ := Real.cos_eq_zero_iff.1 h1
  obtain ⟨q, rfl⟩ := isDouble_rat h
  have h2 : (2 * k + 1 : ℝ) ≠ 0 := by
    have : (2 * k + 1 : ℤ) ≠ 0 := by omega
    exact_mod_cast this
  have h3 : Real.pi = ((2 * q / (2 * k + 1) : ℚ) : ℝ) := by
    push_cast
    field_simp
    linarith
  exact irrational_pi ⟨_, h3.symm⟩

/-! ### the arcsine -/

theorem sin_sub_ge {x y : ℝ} (h0 : x ≤ y) (hx : 0 ≤ x) (hy : y ≤ Real.pi / 2) :
    2 * ((y - x) / Real.pi) ^ 2 ≤ Real.sin y - Real.sin x := by
  have hp := Real.pi_pos
  have h1 : Real.sin y - Real.sin x = 2 * Real.sin ((y - x) / 2) * Real.cos ((y + x) / 2) := Real.sin_sub_sin y x
  have h2 : Real.sin ((y - x) / 2) ≤ Real.cos ((y + x) / 2) := by
    rw [← Real.cos_pi_div_two_sub]
    exact Real.cos_le_cos_of_nonneg_of_le_pi (by linarith) (by linarith) (by linarith)
  have h3 : (y - x) / Real.pi ≤ Real.sin ((y - x) / 2) := by
    have := Real.mul_le_sin (x := (y - x) / 2) (by linarith) (by linarith)
    calc _ = 2 / Real.pi * ((y - x) / 2) := by field_simp
      _ ≤ _ := this
  have h4 : 0 ≤ (y - x) / Real.pi := div_nonneg (by linarith) hp.le
  rw [h1]
  nlinarith [mul_le_mul h3 (h3.trans h2) h4 (h4.trans h3)]

/-- The arcsine of numbers that are near one another. -/
theorem arcsin_near {s t d : ℝ} (hs : 0 ≤ s) (hs1 : s ≤ 1) (ht : 0 ≤ t) (ht1 : t ≤ 1) (h : |t - s| ≤ d) :
    |Real.arcsin t - Real.arcsin s| ≤ Real.pi * √(d / 2) := by
  have key : ∀ u v : ℝ, 0 ≤ u → u ≤ v → v ≤ 1 → v - u ≤ d → Real.arcsin v - Real.arcsin u ≤ Real.pi * √(d / 2) := by
    intro u v hu huv hv huvd
    have h1 := sin_sub_ge (Real.monotone_arcsin huv) (Real.arcsin_nonneg.2 hu) (Real.arcsin_le_pi_div_two v)
    rw [Real.sin_arcsin (by linarith) hv, Real.sin_arcsin (by linarith) (by linarith)] at h1
    have h2 : (Real.arcsin v - Real.arcsin u) / Real.pi ≤ √(d / 2) := Real.le_sqrt_of_sq_le (by linarith)
    rwa [div_le_iff₀ Real.pi_pos, mul_comm] at h2
  obtain ⟨h1, h2⟩ := abs_le.1 h
  rcases le_total s t with hst | hst
  · rw [abs_of_nonneg (sub_nonneg.2 (Real.monotone_arcsin hst))]
    exact key s t hs hst ht1 h2
  · rw [abs_sub_comm, abs_of_nonneg (sub_nonneg.2 (Real.monotone_arcsin hst))]
    exact key t s ht hst hs1 (by linarith)

theorem sin_sub_lip {x y : ℝ} (h0 : x ≤ y) (hx : 0 ≤ x) (hy : y ≤ 1) : (y - x) * (10 / 32) ≤ Real.sin y - Real.sin x := by
  have hp := Real.pi_pos
  have hp1 := Real.pi_lt_d2
  have hp2 := Real.pi_gt_three
  have h1 : Real.sin y - Real.sin x = 2 * Real.sin ((y - x) / 2) * Real.cos ((y + x) / 2) := Real.sin_sub_sin y x
  have h2 : 1 / 2 ≤ Real.cos ((y + x) / 2) := by
    have := Real.one_sub_sq_div_two_le_cos (x := (y + x) / 2)
    nlinarith
  have h3 : (y - x) / Real.pi ≤ Real.sin ((y - x) / 2) := by
    have := Real.mul_le_sin (x := (y - x) / 2) (by linarith) (by linarith)
    calc _ = 2 / Real.pi * ((y - x) / 2) := by field_simp
      _ ≤ _ := this
  have h4 : (y - x) * (10 / 32) ≤ (y - x) / Real.pi := by
    rw [le_div_iff₀ hp]
    nlinarith
  rw [h1]
  nlinarith

/-! ### the functions -/

section Main

variable {r : ℝ → ℝ} (hr : Nearest r) {L : Lib} (hL : L.Ok r) (hd : ∀ x, IsDouble (L.sin x)) {asin : ℝ → ℝ}
  (hs : ∀ x, 0 ≤ x → x ≤ 1 → |asin x - Real.arcsin x| ≤ 1 / 2 ^ 52)

include hr in
theorem half_err {a : ℝ} (h : |a| ≤ 4) : |r (a * (1 / 2)) - a / 2| ≤ 1 / 2 ^ 53 := by
  have := hr.err (x := a * (1 / 2)) (e := -52) (by norm_num) (by rw [abs_mul]; norm_num; linarith)
  rw [show a * (1 / 2) = a / 2 by ring] at *
  norm_num at this ⊢
  exact this

include hr hL hd in
/-- The sine is at most one and near the exact one. -/
theorem sine_err {a : ℝ} (h : |a| ≤ 4) :
    |L.sin (r (a * (1 / 2)))| ≤ 1 ∧ |L.sin (r (a * (1 / 2))) - Real.sin (a / 2)| ≤ 3 / 2 ^ 53 := by
  have h1 := half_err hr h
  have h2 : |r (a * (1 / 2))| ≤ 16 := by
    have := abs_sub_abs_le_abs_sub (r (a * (1 / 2))) (a / 2)
    rw [abs_div, abs_two] at this
    norm_num at h1 ⊢
    linarith
  have h3 := hL.sin _ h2
  constructor
  · refine dbl_above_one (hd _) ?_
    have h4 := sin_lt_one (hr.mem (a * (1 / 2)))
    have h5 := abs_sub_abs_le_abs_sub (L.sin (r (a * (1 / 2)))) (Real.sin (r (a * (1 / 2))))
    linarith
  · have h4 := abs_sub_le (L.sin (r (a * (1 / 2)))) (Real.sin (r (a * (1 / 2)))) (Real.sin (a / 2))
    have h5 : |Real.sin (r (a * (1 / 2))) - Real.sin (a / 2)| ≤ |r (a * (1 / 2)) - a / 2| :=
      Real.abs_sin_sub_sin_le _ _
    norm_num at *
    linarith

include hr hL hd in
theorem havD_mem {a : ℝ} (h : |a| ≤ 4) : 0 ≤ havD r L a ∧ havD r L a ≤ 1 := by
  have h1 := (sine_err hr hL hd h).1
  refine ⟨hr.nonneg (sq_nonneg _), hr.le_dbl (by exact_mod_cast isDouble_int (n := 1) (by norm_num)) ?_⟩
  rw [← sq_abs]
  nlinarith [abs_nonneg (L.sin (r (a * (1 / 2))))]

include hr hL hd in
/-- The square root of the haversine. -/
theorem root_err {a : ℝ} (h : |a| ≤ 4) : 0 ≤ L.sqrt (havD r L a) ∧ L.sqrt (havD r L a) ≤ 1 ∧
    |L.sqrt (havD r L a) - (|Real.sin (a / 2)|)| ≤ 9 / 2 ^ 53 := by
  obtain ⟨h1, h2⟩ := sine_err hr hL hd h
  obtain ⟨h3, h4⟩ := havD_mem hr hL hd h
  refine ⟨?_, ?_, ?_⟩
  · rw [hL.sqrt _ h3]
    exact hr.nonneg (Real.sqrt_nonneg _)
  · rw [hL.sqrt _ h3]
    exact hr.le_dbl (by exact_mod_cast isDouble_int (n := 1) (by norm_num)) (Real.sqrt_le_one.2 h4)
  · have h5 := norm_err hr hL (L.sin (r (a * (1 / 2)))) 0
    rw [show (0 : ℝ) ^ 2 = 0 by norm_num, hr.zero, add_zero, add_zero, hr.keep (hr.mem _), Real.sqrt_sq_eq_abs] at h5
    have h6 := abs_abs_sub_abs_le (L.sin (r (a * (1 / 2)))) (Real.sin (a / 2))
    have h7 := abs_sub_le (L.sqrt (havD r L a)) |L.sin (r (a * (1 / 2)))| |Real.sin (a / 2)|
    unfold havD at *
    norm_num at *
    linarith

/-- `L.sqrt` and the arcsine of numpy after one another. -/
noncomputable def angleD (L : Lib) (asin : ℝ → ℝ) (h : ℝ) : ℝ := 2 * asin (L.sqrt h)

theorem tinyD_near (hr : Nearest r) : |tinyD r - 1 / 10 ^ 16| ≤ 1 / 2 ^ 53 * (1 / 10 ^ 16) := by
  have := hr.rel (x := 1 / 10 ^ 16) ((two_le (show (-1022 : ℤ) ≤ -60 by norm_num)).trans (by norm_num))
  unfold tinyD
  norm_num at this ⊢
  exact this

include hr hL hd in
/-- Which of the two branches of `archav` is taken after `hav`. -/
theorem archav_hav {a : ℝ} (h : |a| ≤ 4) : archavD r L asin (havD r L a) =
    if havD r L a < tinyD r then some 0 else some (angleD L asin (havD r L a)) := by
  obtain ⟨h1, h2⟩ := havD_mem hr hL hd h
  have h3 := (root_err hr hL hd h).2.1
  unfold archavD angleD
  rw [abs_of_nonneg h1]
  split
  · rfl
  · rename_i hc
    rw [if_pos (not_lt.1 hc)]

theorem abs_sin_half {a : ℝ} (h : |a| ≤ Real.pi) : |Real.sin (a / 2)| = Real.sin (|a| / 2) := by
  rw [show |a| / 2 = |a / 2| by rw [abs_div, abs_two]]
  rcases le_total 0 (a / 2) with h1 | h1
  · rw [abs_of_nonneg h1, abs_of_nonneg]
    have := le_abs_self a
    exact Real.sin_nonneg_of_nonneg_of_le_pi h1 (by linarith [Real.pi_pos])
  · rw [abs_of_nonpos h1, Real.sin_neg, abs_of_nonpos]
    have := neg_abs_le a
    exact Real.sin_nonpos_of_nonpos_of_neg_pi_le h1 (by linarith [Real.pi_pos])

theorem le_four {a : ℝ} (h : |a| ≤ Real.pi) : |a| ≤ 4 := by linarith [Real.pi_lt_d2]

theorem arcsin_half {a : ℝ} (h : |a| ≤ Real.pi) : Real.arcsin |Real.sin (a / 2)| = |a| / 2 := by
  rw [abs_sin_half h]
  exact Real.arcsin_sin (by linarith [abs_nonneg a, Real.pi_pos]) (by linarith)

include hr hL hd hs in
theorem angle_err {a : ℝ} (h : |a| ≤ Real.pi) : |angleD L asin (havD r L a) - (|a|)| ≤ 1 / 2 ^ 22 := by
  obtain ⟨h0, h1, h2⟩ := root_err hr hL hd (le_four h)
  have h3 := arcsin_near (abs_nonneg (Real.sin (a / 2))) (Real.abs_sin_le_one _) h0 h1 h2
  rw [arcsin_half h, show (9 / 2 ^ 53 / 2 : ℝ) = (3 / 2 ^ 27) ^ 2 by norm_num, Real.sqrt_sq (by norm_num)] at h3
  have h4 := hs _ h0 h1
  have h5 := abs_sub_le (asin (L.sqrt (havD r L a))) (Real.arcsin (L.sqrt (havD r L a))) (|a| / 2)
  have h6 : Real.pi * (3 / 2 ^ 27) ≤ 3.15 * (3 / 2 ^ 27) := mul_le_mul_of_nonneg_right Real.pi_lt_d2.le (by norm_num)
  unfold angleD
  rw [show 2 * asin (L.sqrt (havD r L a)) - |a| = 2 * (asin (L.sqrt (havD r L a)) - |a| / 2) by ring, abs_mul, abs_two]
  norm_num at *
  linarith

include hr hL hd in
/-- Where the haversine is taken for zero the angle is tiny. -/
theorem small_angle {a : ℝ} (h : |a| ≤ Real.pi) (ht : havD r L a < tinyD r) : |a| ≤ 1 / 2 ^ 24 := by
  obtain ⟨h1, h2⟩ := havD_mem hr hL hd (le_four h)
  obtain ⟨h3, h4, h5⟩ := root_err hr hL hd (le_four h)
  have h6 : havD r L a ≤ (1 / 2 ^ 26) ^ 2 := by
    have := (abs_le.1 (tinyD_near hr)).2
    norm_num at this ⊢
    linarith
  have h7 : L.sqrt (havD r L a) ≤ 1 / 2 ^ 26 := by
    rw [hL.sqrt _ h1]
    refine hr.le_dbl ⟨1, -26, by norm_num, by norm_num, by norm_num⟩ ?_
    rw [← Real.sqrt_sq (show (0 : ℝ) ≤ 1 / 2 ^ 26 by norm_num)]
    exact Real.sqrt_le_sqrt h6
  have h8 : Real.sin (|a| / 2) ≤ 1.001 / 2 ^ 26 := by
    rw [← abs_sin_half h]
    have := (abs_le.1 h5).1
    norm_num at *
    linarith
  have h9 := Real.mul_le_sin (x := |a| / 2) (by positivity) (by linarith)
  have hp := Real.pi_pos
  have h10 : |a| ≤ Real.pi * (1.001 / 2 ^ 26) := by
    have : 2 / Real.pi * (|a| / 2) = |a| / Real.pi := by field_simp
    rw [this] at h9
    have := h9.trans h8
    rwa [div_le_iff₀ hp, mul_comm] at this
  have h11 : Real.pi * (1.001 / 2 ^ 26) ≤ 3.15 * (1.001 / 2 ^ 26) := mul_le_mul_of_nonneg_right Real.pi_lt_d2.le (by norm_num)
  norm_num at *
  linarith

include hr hL hd hs in
/-- **C189** `archav(hav(a))` is a number, never NaN, for each angle up to half a turn, and within `2 ^ -22` of the
magnitude of the angle: no rounding takes the haversine out of [0, 1]. -/
theorem C189_number {a : ℝ} (h : |a| ≤ Real.pi) : (0 ≤ havD r L a ∧ havD r L a ≤ 1) ∧
    ∃ b, archavD r L asin (havD r L a) = some b ∧ |b - (|a|)| ≤ 1 / 2 ^ 22 := by
  refine ⟨havD_mem hr hL hd (le_four h), ?_⟩
  rw [archav_hav hr hL hd (le_four h)]
  split
  · rename_i ht
    refine ⟨0, rfl, ?_⟩
    rw [zero_sub, abs_neg, abs_abs]
    exact (small_angle hr hL hd h ht).trans (by norm_num)
  · exact ⟨_, rfl, angle_err hr hL hd hs h⟩

include hr hL hd hs in
/-- **C189** For angles from `2 ^ -24` up to a quarter of a turn the error is at most `2 ^ -47`. -/
theorem C189_quarter_partial {a : ℝ} (h0 : 1 / 2 ^ 24 < |a|) (h : |a| ≤ Real.pi / 2) :
    ∃ b, archavD r L asin (havD r L a) = some b ∧ |b - (|a|)| ≤ 1 / 2 ^ 47 := by
  have hp := Real.pi_pos
  have hp2 := Real.pi_lt_d2
  have hπ : |a| ≤ Real.pi := by linarith
  rw [archav_hav hr hL hd (le_four hπ), if_neg fun ht => not_le.2 h0 (small_angle hr hL hd hπ ht)]
  refine ⟨_, rfl, ?_⟩
  obtain ⟨t0, t1, t2⟩ := root_err hr hL hd (le_four hπ)
  have h1 := arcsin_near (abs_nonneg (Real.sin (a / 2))) (Real.abs_sin_le_one _) t0 t1 t2
  rw [arcsin_half hπ, show (9 / 2 ^ 53 / 2 : ℝ) = (3 / 2 ^ 27) ^ 2 by norm_num, Real.sqrt_sq (by norm_num)] at h1
  have h2 : Real.pi * (3 / 2 ^ 27) ≤ 3.15 * (3 / 2 ^ 27) := mul_le_mul_of_nonneg_right Real.pi_lt_d2.le (by norm_num)
  have h3 := (abs_le.1 h1).2
  set t := L.sqrt (havD r L a)
  have y1 : Real.arcsin t ≤ 1 := by norm_num at h2 h3 ⊢; linarith
  have y0 : 0 ≤ Real.arcsin t := Real.arcsin_nonneg.2 t0
  have st : Real.sin (Real.arcsin t) = t := Real.sin_arcsin (by linarith) t1
  have sa : Real.sin (|a| / 2) = |Real.sin (a / 2)| := (abs_sin_half hπ).symm
  have h4 : |Real.arcsin t - |a| / 2| * (10 / 32) ≤ |t - (|Real.sin (a / 2)|)| := by
    rcases le_total (|a| / 2) (Real.arcsin t) with hc | hc
    · have := sin_sub_lip hc (by positivity) y1
      rw [st, sa] at this
      rw [abs_of_nonneg (sub_nonneg.2 hc)]
      exact this.trans (le_abs_self _)
    · have := sin_sub_lip hc y0 (by linarith)
      rw [st, sa] at this
      rw [abs_sub_comm, abs_of_nonneg (sub_nonneg.2 hc), abs_sub_comm]
      exact this.trans (le_abs_self _)
  have h5 := hs _ t0 t1
  have h6 := abs_sub_le (asin t) (Real.arcsin t) (|a| / 2)
  unfold angleD
  rw [show 2 * asin t - |a| = 2 * (asin t - |a| / 2) by ring, abs_mul, abs_two]
  norm_num at *
  linarith

include hr hL hd hs in
/-- **C189** Near half a turn the result can be wrong by `2 ^ -27`, about 17 million times the distance of the doubles:
no double between `1 - 2 ^ -53` and 1 could be the square root. -/
theorem C189_half_turn_refuted : ∃ b, IsDouble (piD - 1 / 2 ^ 26) ∧
    archavD r L asin (havD r L (piD - 1 / 2 ^ 26)) = some b ∧ 1 / 2 ^ 27 ≤ |b - (piD - 1 / 2 ^ 26)| := by
  obtain ⟨p1, p2⟩ := piD_bounds
  have hp3 := Real.pi_gt_three
  have hp4 := Real.pi_lt_d2
  set a := piD - 1 / 2 ^ 26 with ha
  have a0 : 0 ≤ a := by rw [ha]; norm_num at *; linarith
  have h : |a| ≤ Real.pi := by rw [abs_of_nonneg a0, ha]; norm_num at *; linarith
  refine ⟨angleD L asin (havD r L a), ⟨884279719003555 - 2 ^ 22, -48, by norm_num, by norm_num, by rw [ha]; unfold piD; norm_num⟩, ?_, ?_⟩
  · rw [archav_hav hr hL hd (le_four h), if_neg fun ht => ?_]
    have := small_angle hr hL hd h ht
    rw [abs_of_nonneg a0, ha] at this
    norm_num at *
    linarith
  · obtain ⟨t0, t1, -⟩ := root_err hr hL hd (le_four h)
    have dt : IsDouble (L.sqrt (havD r L a)) := by
      rw [hL.sqrt _ (havD_mem hr hL hd (le_four h)).1]
      exact hr.mem _
    have h5 := abs_le.1 (hs _ t0 t1)
    unfold angleD
    set t := L.sqrt (havD r L a)
    rcases eq_or_lt_of_le t1 with hc | hc
    · rw [hc, Real.arcsin_one] at h5
      rw [hc]
      refine le_trans ?_ (le_abs_self _)
      norm_num at *
      linarith
    · have h6 := dbl_below_one dt hc
      have h7 : Real.arcsin t ≤ Real.pi / 2 - 1 / 2 ^ 26 := by
        rw [Real.arcsin_le_iff_le_sin ⟨by linarith, by linarith⟩ ⟨by norm_num; linarith, by norm_num⟩,
          Real.sin_pi_div_two_sub]
        have := Real.one_sub_sq_div_two_le_cos (x := (1 / 2 ^ 26 : ℝ))
        norm_num at this h6 ⊢
        linarith
      rw [abs_sub_comm]
      refine le_trans ?_ (le_abs_self _)
      norm_num at *
      linarith

end Main

/-! ### examples -/

/-- numpy's functions without an error, for the examples; the sine is the nearest double. -/
noncomputable def havLib (r : ℝ → ℝ) : Lib := { exLib r with sin := fun x => r (Real.sin x) }

theorem havLib_ok {r : ℝ → ℝ} (hr : Nearest r) : Lib.Ok r (havLib r) :=
  { exLib_ok r with
    sin := fun x _ => by
      have := hr.err (x := Real.sin x) (e := -53) (by norm_num) (by norm_num; exact Real.abs_sin_le_one x)
      norm_num at this ⊢
      exact this.trans (by norm_num) }

/-- The hypotheses of the theorems hold for ties to even and functions without errors. -/
example : ∃ b, archavD toDouble (havLib toDouble) Real.arcsin (havD toDouble (havLib toDouble) (-3)) = some b ∧
    |b - 3| ≤ 1 / 2 ^ 22 := by
  have := (C189_number toDouble_nearest (havLib_ok toDouble_nearest) (fun _ => toDouble_nearest.mem _) (asin := Real.arcsin)
    (fun x _ _ => by simp) (a := -3) (by norm_num; linarith [Real.pi_gt_three])).2
  norm_num at this ⊢
  exact this

example : ∃ b, archavD toDouble (havLib toDouble) Real.arcsin (havD toDouble (havLib toDouble) 1) = some b ∧
    |b - 1| ≤ 1 / 2 ^ 47 := by
  have := C189_quarter_partial toDouble_nearest (havLib_ok toDouble_nearest) (fun _ => toDouble_nearest.mem _)
    (asin := Real.arcsin) (fun x _ _ => by simp) (a := 1) (by norm_num) (by norm_num; linarith [Real.pi_gt_three])
  norm_num at this ⊢
  exact this

end Ocb.Dbl
