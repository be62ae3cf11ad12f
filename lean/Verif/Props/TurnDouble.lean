import Verif.Model.TurnDouble
import Verif.Props.PoleDouble
import Verif.Props.Vectors

/-!
# C191: `adjust_vector` in double precision
-/

set_option autoImplicit false

namespace Ocb.Dbl

open Ocb.Coord Ocb.Vec

variable {r : ℝ → ℝ}

/-! ### the magnitude -/

/-- The root of the rounded square of a double is its absolute value. -/
theorem root_of_square (hr : Nearest r) {a : ℝ} (ha : IsDouble a) (h : 2 ^ (-505 : ℤ) ≤ a) : r (√(r (a ^ 2))) = a := by
  have a0 : 0 < a := lt_of_lt_of_le (two_pos _) h
  have l1 : ((2 : ℕ) : ℝ) ^ Int.log 2 a ≤ a := Int.zpow_log_le_self (by norm_num) a0
  have l2 : a < ((2 : ℕ) : ℝ) ^ (Int.log 2 a + 1) := Int.lt_zpow_succ_log_self (by norm_num) _
  have l3 : -505 ≤ Int.log 2 a := by
    rw [← Int.zpow_le_iff_le_log (by norm_num) a0]; exact_mod_cast h
  generalize Int.log 2 a = f at l1 l2 l3
  push_cast at l1 l2
  obtain ⟨k, hk⟩ := dbl_grid ha (e := f - 52) (by rw [abs_of_pos a0]; simpa using l1)
  have p0 := two_pos (f - 52)
  have q1 : (2 : ℝ) ^ f = 2 ^ (52 : ℤ) * 2 ^ (f - 52) := by rw [← two_add]; congr 1; ring
  have q2 : (2 : ℝ) ^ (f + 1) = 2 ^ (53 : ℤ) * 2 ^ (f - 52) := by rw [← two_add]; congr 1; ring
  have k1 : (2 : ℤ) ^ 52 ≤ k := by
    rw [q1, hk] at l1
    have := le_of_mul_le_mul_right l1 p0
    exact_mod_cast this
  have k2 : k < (2 : ℤ) ^ 53 := by
    rw [q2, hk] at l2
    have := lt_of_mul_lt_mul_right l2 p0.le
    exact_mod_cast this
  rcases eq_or_lt_of_le k1 with hc | hc
  · have h1 : a = 2 ^ f := by rw [hk, ← hc, q1]; norm_num
    have h2 : IsDouble (a ^ 2) := ⟨1, f + f, by norm_num, by omega, by rw [h1, two_add]; push_cast; ring⟩
    rw [hr.keep h2, Real.sqrt_sq a0.le, hr.keep ha]
  · rw [hk]
    refine hr.near (by omega) hc k2.le ?_
    rw [← hk]
    have h2 : (2 : ℝ) ^ (-1022 : ℤ) ≤ |a ^ 2| := by
      rw [abs_of_nonneg (sq_nonneg a), sq]
      calc (2 : ℝ) ^ (-1022 : ℤ) ≤ 2 ^ (-505 + -505 : ℤ) := two_le (by norm_num)
        _ = 2 ^ (-505 : ℤ) * 2 ^ (-505 : ℤ) := two_add _ _
        _ ≤ _ := mul_le_mul h h (two_pos _).le a0.le
    have h3 := hr.rel h2
    rw [abs_of_nonneg (sq_nonneg a)] at h3
    have S0 := hr.nonneg (sq_nonneg a)
    have hs := Real.sq_sqrt S0
    have s0 := Real.sqrt_nonneg (r (a ^ 2))
    generalize √(r (a ^ 2)) = s at *
    rw [← hs] at h3
    obtain ⟨h3, h4⟩ := abs_le.1 h3
    have m1 : (k : ℝ) ≤ 2 ^ 53 - 1 := by exact_mod_cast (by omega : k ≤ 2 ^ 53 - 1)
    have m2 : (2 : ℝ) ^ 52 ≤ k := by exact_mod_cast k1
    generalize (2 : ℝ) ^ (f - 52) = u at *
    have e1 : (2 : ℝ) ^ (-53 : ℤ) * a ≤ u - 2 ^ (-53 : ℤ) * u := by
      rw [hk]
      have := mul_le_mul_of_nonneg_right m1 p0.le
      have e : (2 : ℝ) ^ (-53 : ℤ) * ((2 ^ 53 - 1) * u) = u - 2 ^ (-53 : ℤ) * u := by
        have : (2 : ℝ) ^ (-53 : ℤ) * 2 ^ 53 = 1 := by norm_num
        linear_combination u * this
      rw [← e]
      exact mul_le_mul_of_nonneg_left this (two_pos _).le
    have e2 : u / 2 ≤ 2 ^ (-53 : ℤ) * a := by
      rw [hk]
      have := mul_le_mul_of_nonneg_right m2 p0.le
      have e : (2 : ℝ) ^ (-53 : ℤ) * (2 ^ 52 * u) = u / 2 := by
        have : (2 : ℝ) ^ (-53 : ℤ) * 2 ^ 52 = 1 / 2 := by norm_num
        linear_combination u * this
      rw [← e]
      exact mul_le_mul_of_nonneg_left this (two_pos _).le
    have ε0 := two_pos (-53)
    generalize (2 : ℝ) ^ (-53 : ℤ) = ε at *
    have e3 : ε * a ^ 2 ≤ (u - ε * u) * a := by
      have := mul_le_mul_of_nonneg_right e1 a0.le
      linarith
    have e4 : u / 2 * u ≤ ε * a * u := mul_le_mul_of_nonneg_right e2 p0.le
    rw [abs_lt]
    constructor
    · by_contra hx
      push Not at hx
      have : (a + u / 2) ^ 2 ≤ s ^ 2 := pow_le_pow_left₀ (by positivity) (by linarith) 2
      nlinarith [mul_pos ε0 (mul_pos a0 p0)]
    · by_contra hx
      push Not at hx
      have : s ^ 2 ≤ (a - u / 2) ^ 2 := pow_le_pow_left₀ s0 (by linarith) 2
      nlinarith [mul_pos p0 p0]

/-- The computed magnitude is the exact one up to four roundings. -/
theorem vmag_near (hr : Nearest r) {L : Lib} (hL : L.Ok r) {n e : ℝ} (hv : 2 ^ (-500 : ℤ) ≤ √(n ^ 2 + e ^ 2)) :
    |vmagD r L n e - √(n ^ 2 + e ^ 2)| ≤ 2 ^ (-51 : ℤ) * √(n ^ 2 + e ^ 2) := by
  have hn := hr.relAbs (n ^ 2)
  have he := hr.relAbs (e ^ 2)
  rw [abs_of_nonneg (sq_nonneg n)] at hn
  rw [abs_of_nonneg (sq_nonneg e)] at he
  have n0 := hr.nonneg (sq_nonneg n)
  have e0 := hr.nonneg (sq_nonneg e)
  have h1 := hr.relAbs (r (n ^ 2) + r (e ^ 2))
  rw [abs_of_nonneg (add_nonneg n0 e0)] at h1
  have S0 := hr.nonneg (add_nonneg n0 e0)
  unfold vmagD
  rw [hL.sqrt _ S0]
  have h2 := hr.relAbs (√(r (r (n ^ 2) + r (e ^ 2))))
  rw [abs_of_nonneg (Real.sqrt_nonneg _)] at h2
  have hs := Real.sq_sqrt S0
  have s0 := Real.sqrt_nonneg (r (r (n ^ 2) + r (e ^ 2)))
  have vv := Real.sq_sqrt (by positivity : 0 ≤ n ^ 2 + e ^ 2)
  have v0 : 0 < √(n ^ 2 + e ^ 2) := lt_of_lt_of_le (two_pos _) hv
  generalize r (√(r (r (n ^ 2) + r (e ^ 2)))) = w at *
  generalize √(r (r (n ^ 2) + r (e ^ 2))) = s at *
  generalize r (r (n ^ 2) + r (e ^ 2)) = S at *
  generalize r (n ^ 2) = N at *
  generalize r (e ^ 2) = E at *
  generalize √(n ^ 2 + e ^ 2) = v at *
  generalize n ^ 2 = N1 at *
  generalize e ^ 2 = E1 at *
  have q1 : (2 : ℝ) ^ (-1075 : ℤ) ≤ 2 ^ (-70 : ℤ) * v ^ 2 := by
    calc (2 : ℝ) ^ (-1075 : ℤ) ≤ 2 ^ (-70 + (-500 + -500) : ℤ) := two_le (by norm_num)
      _ = 2 ^ (-70 : ℤ) * (2 ^ (-500 : ℤ) * 2 ^ (-500 : ℤ)) := by rw [two_add, two_add]
      _ ≤ _ := by
        rw [sq]
        exact mul_le_mul_of_nonneg_left (mul_le_mul hv hv (two_pos _).le v0.le) (two_pos _).le
  have q2 : (2 : ℝ) ^ (-1075 : ℤ) ≤ 2 ^ (-70 : ℤ) * v := by
    calc (2 : ℝ) ^ (-1075 : ℤ) ≤ 2 ^ (-70 + -500 : ℤ) := two_le (by norm_num)
      _ = 2 ^ (-70 : ℤ) * 2 ^ (-500 : ℤ) := two_add _ _
      _ ≤ _ := mul_le_mul_of_nonneg_left hv (two_pos _).le
  generalize (2 : ℝ) ^ (-1075 : ℤ) = η at *
  clear hv
  have V0 : 0 < v ^ 2 := by positivity
  have ηp : η ≤ v ^ 2 / 2 ^ 70 := by norm_num at q1 ⊢; linarith
  have ηq : η ≤ v / 2 ^ 70 := by norm_num at q2 ⊢; linarith
  have eε : (2 : ℝ) ^ (-53 : ℤ) = 1 / 2 ^ 53 := by norm_num
  have e51 : (2 : ℝ) ^ (-51 : ℤ) = 4 / 2 ^ 53 := by norm_num
  rw [eε] at hn he h1 h2
  rw [e51]
  clear q1 q2
  obtain ⟨a1, a2⟩ := abs_le.1 hn
  obtain ⟨b1, b2⟩ := abs_le.1 he
  obtain ⟨c1, c2⟩ := abs_le.1 h1
  obtain ⟨d1, d2⟩ := abs_le.1 h2
  have T1 : N + E ≤ v ^ 2 * (1 + 2 / 2 ^ 53) := by rw [vv] at *; norm_num at *; linarith
  have S1 : S ≤ v ^ 2 * (1 + 41 / 20 / 2 ^ 53) := by rw [vv] at *; norm_num at *; linarith
  have S2 : v ^ 2 * (1 - 41 / 20 / 2 ^ 53) ≤ S := by rw [vv] at *; norm_num at *; linarith
  have s1 : s ≤ v * (1 + 41 / 20 / 2 ^ 53) := by
    apply le_of_sq_le_sq _ (by positivity)
    rw [hs, mul_pow]
    refine S1.trans (mul_le_mul_of_nonneg_left (by norm_num) V0.le)
  have s2 : v * (1 - 41 / 20 / 2 ^ 53) ≤ s := by
    apply le_of_sq_le_sq _ s0
    rw [hs, mul_pow]
    refine le_trans (mul_le_mul_of_nonneg_left (by norm_num) V0.le) S2
  rw [abs_le]
  constructor <;> norm_num at * <;> linarith

/-- The computed magnitude is at least each component. -/
theorem vmag_ge (hr : Nearest r) {L : Lib} (hL : L.Ok r) {n e : ℝ} (hn : IsDouble n)
    (hv : 2 ^ (-500 : ℤ) ≤ √(n ^ 2 + e ^ 2)) : 0 < vmagD r L n e ∧ |n| ≤ vmagD r L n e := by
  have h1 := vmag_near hr hL hv
  have v0 : 0 < √(n ^ 2 + e ^ 2) := lt_of_lt_of_le (two_pos _) hv
  have h2 : √(n ^ 2 + e ^ 2) / 2 ≤ vmagD r L n e := by
    have k1 := (abs_le.1 h1).1
    have e51 : (2 : ℝ) ^ (-51 : ℤ) ≤ 1 / 2 := by norm_num
    have k2 := mul_le_mul_of_nonneg_right e51 v0.le
    clear hv h1 e51
    generalize (2 : ℝ) ^ (-51 : ℤ) * √(n ^ 2 + e ^ 2) = y at *
    linarith
  refine ⟨by linarith, ?_⟩
  rcases le_or_gt ((2 : ℝ) ^ (-505 : ℤ)) |n| with hc | hc
  · have hd : IsDouble |n| := by
      obtain ⟨m, f, hm, hf, rfl⟩ := hn
      exact ⟨|m|, f, by rwa [abs_abs], hf, by rw [abs_mul, abs_of_pos (two_pos f)]; push_cast; rfl⟩
    have h3 := root_of_square hr hd hc
    rw [sq_abs] at h3
    have n0 := hr.nonneg (sq_nonneg n)
    have e0 := hr.nonneg (sq_nonneg e)
    unfold vmagD
    rw [hL.sqrt _ (hr.nonneg (add_nonneg n0 e0)), ← h3]
    apply hr.mono
    apply Real.sqrt_le_sqrt
    exact hr.dbl_le (hr.mem _) (by linarith)
  · have h4 : (2 : ℝ) ^ (-505 : ℤ) ≤ 2 ^ (-500 : ℤ) / 2 := by
      have : (2 : ℝ) ^ (-500 : ℤ) / 2 = 2 ^ (-501 : ℤ) := by
        rw [show (-500 : ℤ) = -501 + 1 by norm_num, two_add]; norm_num
      rw [this]
      exact two_le (by norm_num)
    linarith

/-! ### the azimuth -/

/-- The arc cosine of near numbers. -/
theorem arccos_root {s t d : ℝ} (hs : |s| ≤ 1) (ht : |t| ≤ 1) (h : |t - s| ≤ d) :
    |Real.arccos t - Real.arccos s| ≤ Real.pi * √(d / 2) := by
  have key : ∀ u v : ℝ, |u| ≤ 1 → |v| ≤ 1 → u ≤ v → v - u ≤ d → Real.arccos u - Real.arccos v ≤ Real.pi * √(d / 2) := by
    intro u v hu hv huv hd
    have hp := Real.pi_pos
    have ca := Real.cos_arccos (abs_le.1 hu).1 (abs_le.1 hu).2
    have cc := Real.cos_arccos (abs_le.1 hv).1 (abs_le.1 hv).2
    have a1 := Real.arccos_le_pi u
    have c0 := Real.arccos_nonneg v
    have hac := Real.antitone_arccos huv
    generalize Real.arccos u = a at *
    generalize Real.arccos v = c at *
    have h1 : v - u = 2 * Real.sin ((a + c) / 2) * Real.sin ((a - c) / 2) := by
      rw [← ca, ← cc, Real.cos_sub_cos]
      rw [show (c - a) / 2 = -((a - c) / 2) by ring, Real.sin_neg, add_comm c a]
      ring
    have h2 : 2 / Real.pi * ((a - c) / 2) ≤ Real.sin ((a - c) / 2) := Real.mul_le_sin (by linarith) (by linarith)
    have h3 : 2 / Real.pi * ((a - c) / 2) = (a - c) / Real.pi := by ring
    have h4 : Real.sin ((a - c) / 2) ≤ Real.sin ((a + c) / 2) := by
      rcases le_total ((a + c) / 2) (Real.pi / 2) with h | h
      · exact Real.sin_le_sin_of_le_of_le_pi_div_two (by linarith) h (by linarith)
      · rw [← Real.sin_pi_sub ((a + c) / 2)]
        exact Real.sin_le_sin_of_le_of_le_pi_div_two (by linarith) (by linarith) (by linarith)
    rw [h3] at h2
    have h5 : 0 ≤ (a - c) / Real.pi := div_nonneg (by linarith) hp.le
    have h6 : ((a - c) / Real.pi) ^ 2 ≤ d / 2 := by nlinarith
    have h7 := Real.le_sqrt_of_sq_le h6
    rw [div_le_iff₀ hp] at h7
    linarith
  obtain ⟨h1, h2⟩ := abs_le.1 h
  rw [abs_le]
  rcases le_total s t with c | c
  · have := key s t hs ht c h2
    have := Real.antitone_arccos c
    constructor
    · linarith
    · have : 0 ≤ Real.pi * √(d / 2) := by positivity
      linarith
  · have := key t s ht hs c (by linarith)
    have := Real.antitone_arccos c
    constructor
    · have : 0 ≤ Real.pi * √(d / 2) := by positivity
      linarith
    · linarith

/-- The computed azimuth is a number in the right quadrant, up to a rounding, and not far from the exact one. -/
theorem naz_near (hr : Nearest r) {L : Lib} (hL : L.Ok r) {acos : ℝ → ℝ}
    (hac : ∀ x, |x| ≤ 1 → |acos x - Real.arccos x| ≤ 1 / 2 ^ 51) {n e : ℝ} (hn : IsDouble n)
    (hv : 2 ^ (-500 : ℤ) ≤ √(n ^ 2 + e ^ 2)) :
    ∃ b, nazD r L acos n e = some b ∧ |radians b - Real.arccos (n / √(n ^ 2 + e ^ 2))| ≤ 19 / 2 ^ 28 ∧
      (0 ≤ n → -(1 / 2 ^ 43) ≤ b ∧ b ≤ 90 + 1 / 2 ^ 43) ∧ (n < 0 → 90 - 1 / 2 ^ 43 ≤ b ∧ b ≤ 180 + 1 / 2 ^ 43) := by
  obtain ⟨w0, wn⟩ := vmag_ge hr hL hn hv
  have hw := vmag_near hr hL hv
  have v0 : 0 < √(n ^ 2 + e ^ 2) := lt_of_lt_of_le (two_pos _) hv
  have nv : |n| ≤ √(n ^ 2 + e ^ 2) := Real.abs_le_sqrt (by nlinarith [sq_nonneg e])
  have d1 : IsDouble 1 := by exact_mod_cast isDouble_nat (n := 1) (by norm_num)
  have dm1 : IsDouble (-1) := by exact_mod_cast isDouble_int (n := -1) (by norm_num)
  have x1 : |n / vmagD r L n e| ≤ 1 := by
    rw [abs_div, abs_of_pos w0]; exact (div_le_one w0).2 wn
  have X1 : |n / √(n ^ 2 + e ^ 2)| ≤ 1 := by
    rw [abs_div, abs_of_pos v0]; exact (div_le_one v0).2 nv
  have q1 : |r (n / vmagD r L n e)| ≤ 1 := by
    obtain ⟨a, b⟩ := abs_le.1 x1
    exact abs_le.2 ⟨hr.dbl_le dm1 a, hr.le_dbl d1 b⟩
  have hq : |r (n / vmagD r L n e) - n / √(n ^ 2 + e ^ 2)| ≤ 9 / 2 ^ 53 := by
    have h1 := hr.err (x := n / vmagD r L n e) (e := -53) (by norm_num) (by norm_num; exact x1)
    have h2 : |n / vmagD r L n e - n / √(n ^ 2 + e ^ 2)| ≤ 5 / 2 ^ 53 := by
      have : n / vmagD r L n e - n / √(n ^ 2 + e ^ 2) =
          -(n / vmagD r L n e) * ((vmagD r L n e - √(n ^ 2 + e ^ 2)) / √(n ^ 2 + e ^ 2)) := by field_simp; ring
      rw [this, abs_mul, abs_neg]
      have h3 : |(vmagD r L n e - √(n ^ 2 + e ^ 2)) / √(n ^ 2 + e ^ 2)| ≤ 2 ^ (-51 : ℤ) := by
        rw [abs_div, abs_of_pos v0, div_le_iff₀ v0]; exact hw
      calc _ ≤ 1 * 2 ^ (-51 : ℤ) := mul_le_mul x1 h3 (abs_nonneg _) (by norm_num)
        _ ≤ _ := by norm_num
    have h3 := abs_sub_le (r (n / vmagD r L n e)) (n / vmagD r L n e) (n / √(n ^ 2 + e ^ 2))
    norm_num at h1 h2 h3 ⊢
    linarith
  have ha := hac _ q1
  have hA := arccos_root X1 q1 hq
  rw [show (9 / 2 ^ 53 / 2 : ℝ) = (3 / 2 ^ 27) ^ 2 by norm_num, Real.sqrt_sq (by norm_num)] at hA
  have a0 := Real.arccos_nonneg (r (n / vmagD r L n e))
  have aπ := Real.arccos_le_pi (r (n / vmagD r L n e))
  have π1 := Real.pi_lt_d6
  have π0 := Real.pi_gt_d6
  have b4 : |acos (r (n / vmagD r L n e))| ≤ 4 := by
    have := abs_sub_abs_le_abs_sub (acos (r (n / vmagD r L n e))) (Real.arccos (r (n / vmagD r L n e)))
    rw [abs_of_nonneg a0] at this
    norm_num at this ha ⊢
    linarith
  have hd := hL.degrees _ b4
  refine ⟨L.degrees (acos (r (n / vmagD r L n e))), ?_, ?_⟩
  · unfold nazD
    rw [if_neg w0.ne', if_neg (not_lt.2 q1)]
  have hD : |L.degrees (acos (r (n / vmagD r L n e))) - degrees (Real.arccos (r (n / vmagD r L n e)))| ≤ 1 / 2 ^ 43 := by
    have h1 : |acos (r (n / vmagD r L n e)) * 180 / Real.pi - degrees (Real.arccos (r (n / vmagD r L n e)))| ≤ 60 * (1 / 2 ^ 51) := by
      unfold degrees
      rw [← sub_div, ← sub_mul, mul_div_assoc, abs_mul, mul_comm, abs_of_pos (by positivity : 0 < 180 / Real.pi)]
      apply mul_le_mul _ ha (abs_nonneg _) (by norm_num)
      rw [div_le_iff₀ Real.pi_pos]; linarith
    have h2 := abs_sub_le (L.degrees (acos (r (n / vmagD r L n e)))) (acos (r (n / vmagD r L n e)) * 180 / Real.pi)
      (degrees (Real.arccos (r (n / vmagD r L n e))))
    norm_num at h1 h2 hd ⊢
    linarith
  have sgn0 : 0 ≤ n → 0 ≤ r (n / vmagD r L n e) := fun h => hr.nonneg (div_nonneg h w0.le)
  have sgn1 : n < 0 → r (n / vmagD r L n e) ≤ 0 := fun h => hr.nonpos (div_nonpos_of_nonpos_of_nonneg h.le w0.le)
  generalize L.degrees (acos (r (n / vmagD r L n e))) = b at *
  generalize r (n / vmagD r L n e) = q at *
  have e0 : degrees 0 = 0 := by unfold degrees; ring
  have e90 : degrees (Real.pi / 2) = 90 := by unfold degrees; field_simp; norm_num
  have e180 : degrees Real.pi = 180 := by unfold degrees; field_simp
  obtain ⟨D1, D2⟩ := abs_le.1 hD
  refine ⟨?_, ?_, ?_⟩
  · have h1 : |radians b - Real.arccos q| ≤ 1 / 2 ^ 43 := by
      rw [← radians_degrees (Real.arccos q), ← radians_sub]
      unfold radians
      rw [mul_div_assoc, abs_mul, abs_of_pos (by positivity : 0 < Real.pi / 180)]
      calc _ ≤ 1 / 2 ^ 43 * 1 := mul_le_mul hD (by linarith) (by positivity) (by norm_num)
        _ = _ := mul_one _
    have h2 := abs_sub_le (radians b) (Real.arccos q) (Real.arccos (n / √(n ^ 2 + e ^ 2)))
    have h3 : Real.pi * (3 / 2 ^ 27) ≤ 3.15 * (3 / 2 ^ 27) := mul_le_mul_of_nonneg_right (by linarith) (by norm_num)
    norm_num at h1 h2 h3 hA ⊢
    linarith
  · intro h
    have h1 := degrees_le.2 a0
    have h2 := degrees_le.2 (Real.arccos_le_pi_div_two.2 (sgn0 h))
    rw [e0] at h1
    rw [e90] at h2
    constructor <;> linarith
  · intro h
    have h1 := degrees_le.2 aπ
    have h2 : Real.pi / 2 ≤ Real.arccos q := by
      by_contra hc
      push Not at hc
      have := Real.arccos_lt_pi_div_two.1 hc
      linarith [sgn1 h]
    have h3 := degrees_le.2 h2
    rw [e180] at h1
    rw [e90] at h3
    constructor <;> linarith

/-! ### the table -/

/-- `b` is in the half circle of the quadrant up to `ε`. -/
def HalfD (ε : ℝ) (q : ℤ) (b : ℝ) : Prop :=
  ((q = 1 ∨ q = 2) ∧ -ε ≤ b ∧ b ≤ 90 + ε) ∨ ((q = 3 ∨ q = 4) ∧ 90 - ε ≤ b ∧ b ≤ 180 + ε)

set_option maxHeartbeats 2000000 in
/-- The rounded table against the turn from the pole to the vector. -/
theorem table_near {ε : ℝ} (ε0 : 0 < ε) (ε1 : ε ≤ 1) (hε : ∀ x, |x| ≤ 512 → |r x - x| ≤ ε) {pq vq : ℤ} {b p : ℝ}
    (hp : Half pq p) (hv : HalfD ε vq b) :
    ∃ d, destPolarD r pq vq b p = some d ∧ -(10 * ε) ≤ d ∧ d ≤ 180 + 10 * ε ∧
      ((northSignD r pq vq b p = 1 ∧ d ≤ 90 + 10 * ε) ∨ (northSignD r pq vq b p = -1 ∧ 90 - 10 * ε ≤ d)) ∧
      (eastSignD r pq vq b p = 1 ∨ eastSignD r pq vq b p = -1) ∧
      ∃ k : ℝ, (k = 0 ∨ k = 360 ∨ k = -360) ∧ -(10 * ε) ≤ azim vq b - azim pq p - (eastSignD r pq vq b p * d + k) ∧
        azim vq b - azim pq p - (eastSignD r pq vq b p * d + k) ≤ 10 * ε := by
  have hb : -1 ≤ b ∧ b ≤ 181 := by rcases hv with ⟨-, h⟩ | ⟨-, h⟩ <;> constructor <;> linarith
  have hpp : 0 ≤ p ∧ p ≤ 180 := by rcases hp with ⟨-, h⟩ | ⟨-, h⟩ <;> constructor <;> linarith
  have bd : ∀ x, -512 ≤ x → x ≤ 512 → x - ε ≤ r x ∧ r x ≤ x + ε := fun x h1 h2 => by
    have := abs_le.1 (hε x (abs_le.2 ⟨h1, h2⟩))
    constructor <;> linarith
  have r1 := bd (b - p) (by linarith) (by linarith)
  have r2 := bd (p + b) (by linarith) (by linarith)
  have r3 := bd (360 - r (p + b)) (by linarith) (by linarith)
  have r4 := bd (p - b) (by linarith) (by linarith)
  have r5 := bd (360 - b) (by linarith) (by linarith)
  have r6 := bd (r (360 - b) - p) (by linarith) (by linarith)
  have r7 := bd (p + 90) (by linarith) (by linarith)
  have r8 := bd (90 - p) (by linarith) (by linarith)
  have r9 := bd (p - 90) (by linarith) (by linarith)
  have r10 := bd (180 - r (p - 90)) (by linarith) (by linarith)
  have r11 := bd (180 - p) (by linarith) (by linarith)
  unfold destPolarD northSignD eastSignD
  generalize r (360 - r (p + b)) = x3 at *
  generalize r (b - p) = x1 at *
  generalize r (p + b) = x2 at *
  generalize r (p - b) = x4 at *
  generalize r (r (360 - b) - p) = x6 at *
  generalize r (360 - b) = x5 at *
  generalize r (p + 90) = x7 at *
  generalize r (90 - p) = x8 at *
  generalize r (180 - r (p - 90)) = x10 at *
  generalize r (p - 90) = x9 at *
  generalize r (180 - p) = x11 at *
  clear bd hε
  obtain ⟨r1, s1⟩ := r1
  obtain ⟨r2, s2⟩ := r2
  obtain ⟨r3, s3⟩ := r3
  obtain ⟨r4, s4⟩ := r4
  obtain ⟨r5, s5⟩ := r5
  obtain ⟨r6, s6⟩ := r6
  obtain ⟨r7, s7⟩ := r7
  obtain ⟨r8, s8⟩ := r8
  obtain ⟨r9, s9⟩ := r9
  obtain ⟨r10, s10⟩ := r10
  obtain ⟨r11, s11⟩ := r11
  obtain ⟨hb, hb'⟩ := hb
  obtain ⟨hpp, hpp'⟩ := hpp
  rcases hp with ⟨rfl | rfl, hp1, hp2⟩ | ⟨rfl | rfl, hp1, hp2⟩ <;>
  rcases hv with ⟨rfl | rfl, hv1, hv2⟩ | ⟨rfl | rfl, hv1, hv2⟩ <;>
  rcases abs_cases x1 with ⟨h, h'⟩ | ⟨h, h'⟩ <;>
  simp only [azim, Int.reduceEq, and_true, and_false, or_false, false_or,
    true_or, or_true, false_and, true_and, and_self, if_true, if_false, Option.some.injEq, exists_eq_left', h] <;>
  (try split_ifs) <;>
  (repeat' apply And.intro) <;>
  first
  | linarith
  | exact .inl rfl
  | exact .inr rfl
  | exact .inl ⟨rfl, by linarith⟩
  | exact .inr ⟨rfl, by linarith⟩
  | exact .inl (by linarith)
  | exact .inr (by linarith)
  | exact ⟨0, .inl rfl, by linarith, by linarith⟩
  | exact ⟨360, .inr (.inl rfl), by linarith, by linarith⟩
  | exact ⟨-360, .inr (.inr rfl), by linarith, by linarith⟩

/-- The fold below a right angle: with the north sign the cosine of the angle, up to its rounding, and its sine. -/
theorem fold_near (hr : Nearest r) {L : Lib} (hL : L.Ok r) {d N : ℝ} (h0 : -(10 * (1 / 2 ^ 43)) ≤ d)
    (h1 : d ≤ 180 + 10 * (1 / 2 ^ 43))
    (hN : (N = 1 ∧ d ≤ 90 + 10 * (1 / 2 ^ 43)) ∨ (N = -1 ∧ 90 - 10 * (1 / 2 ^ 43) ≤ d)) :
    |foldD r L d| ≤ 4 ∧ |N * Real.cos (foldD r L d) - Real.cos (radians d)| ≤ 4 / 2 ^ 43 ∧
      |Real.sin (foldD r L d) - Real.sin (radians d)| ≤ 1 / 2 ^ 43 := by
  obtain ⟨p1, p2⟩ := piD_bounds
  have π1 := Real.pi_lt_d6
  have π0 := Real.pi_gt_d6
  have hx := hL.radians d (by rw [abs_le]; constructor <;> norm_num at h0 h1 ⊢ <;> linarith)
  have e90 : radians 90 = Real.pi / 2 := radians_90
  have s1 : ∀ t, t ≤ 10 * (1 / 2 ^ 43) → radians t ≤ 1 / 2 ^ 43 := by
    intro t ht
    have h2 := radians_le.2 ht
    have h3 : radians (10 * (1 / 2 ^ 43)) = 10 * (1 / 2 ^ 43) * Real.pi / 180 := rfl
    rw [h3] at h2
    norm_num at h2 ⊢
    linarith
  have k0 : -(1 / 2 ^ 43) ≤ radians d := by
    have := s1 (-d) (by linarith)
    rw [radians_neg] at this
    linarith
  have k1 : radians d ≤ Real.pi + 1 / 2 ^ 43 := by
    have := s1 (d - 180) (by linarith)
    rw [radians_sub, radians_180] at this
    linarith
  have k2 : (N = 1 ∧ radians d ≤ Real.pi / 2 + 1 / 2 ^ 43) ∨ (N = -1 ∧ Real.pi / 2 - 1 / 2 ^ 43 ≤ radians d) := by
    rcases hN with ⟨hN, h⟩ | ⟨hN, h⟩
    · have := s1 (d - 90) (by linarith)
      rw [radians_sub, e90] at this
      exact .inl ⟨hN, by linarith⟩
    · have := s1 (90 - d) (by linarith)
      rw [radians_sub, e90] at this
      exact .inr ⟨hN, by linarith⟩
  have hx' : |L.radians d - radians d| ≤ 1 / 2 ^ 49 := hx
  clear hx hN s1 h0 h1
  unfold foldD
  generalize L.radians d = x at *
  generalize radians d = ρ at *
  obtain ⟨x1, x2⟩ := abs_le.1 hx'
  split_ifs with hc
  · have hs := sub_near hr (a := Real.pi) (a' := piD) (b := ρ) (b' := x) (e := 1 / 2 ^ 50) (f := 1 / 2 ^ 49)
      (by rw [abs_le]; norm_num at p1 p2 ⊢; constructor <;> linarith) hx'
      (by rw [abs_le]; norm_num at *; constructor <;> linarith)
    generalize r (piD - x) = F at *
    have hF : |F - (Real.pi - ρ)| ≤ 1 / 2 ^ 47 := by norm_num at hs ⊢; linarith
    have c1 := Real.abs_cos_sub_cos_le F (Real.pi - ρ)
    have c2 := Real.abs_sin_sub_sin_le F (Real.pi - ρ)
    rw [Real.cos_pi_sub] at c1
    rw [Real.sin_pi_sub] at c2
    refine ⟨?_, ?_, ?_⟩
    · obtain ⟨a, b⟩ := abs_le.1 hF
      rw [abs_le]; norm_num at *; constructor <;> linarith
    · rcases k2 with ⟨rfl, h⟩ | ⟨rfl, h⟩
      · have c3 := Real.abs_cos_sub_cos_le ρ (Real.pi / 2)
        rw [Real.cos_pi_div_two, sub_zero] at c3
        have c4 : |ρ - Real.pi / 2| ≤ 1 / 2 ^ 43 := by rw [abs_le]; norm_num at *; constructor <;> linarith
        have : 1 * Real.cos F - Real.cos ρ = (Real.cos F - -Real.cos ρ) - 2 * Real.cos ρ := by ring
        rw [this]
        refine (abs_sub _ _).trans ?_
        rw [abs_mul, abs_of_pos (by norm_num : (0 : ℝ) < 2)]
        norm_num at *
        linarith
      · have : -1 * Real.cos F - Real.cos ρ = -(Real.cos F - -Real.cos ρ) := by ring
        rw [this, abs_neg]
        norm_num at *
        linarith
    · norm_num at *
      linarith
  · have c1 := Real.abs_cos_sub_cos_le x ρ
    have c2 := Real.abs_sin_sub_sin_le x ρ
    refine ⟨?_, ?_, ?_⟩
    · rw [abs_le]; norm_num at *; constructor <;> linarith
    · rcases k2 with ⟨rfl, h⟩ | ⟨rfl, h⟩
      · rw [one_mul]
        norm_num at *
        linarith
      · have c3 := Real.abs_cos_sub_cos_le ρ (Real.pi / 2)
        rw [Real.cos_pi_div_two, sub_zero] at c3
        have c4 : |ρ - Real.pi / 2| ≤ 1 / 2 ^ 43 := by
          rw [abs_le]; norm_num at *; constructor <;> linarith
        have : -1 * Real.cos x - Real.cos ρ = -(Real.cos x - Real.cos ρ) - 2 * Real.cos ρ := by ring
        rw [this]
        refine (abs_sub _ _).trans ?_
        rw [abs_neg, abs_mul, abs_of_pos (by norm_num : (0 : ℝ) < 2)]
        norm_num at *
        linarith
    · norm_num at *
      linarith

/-- A rounded product of a sign, the computed magnitude and a computed sine or cosine. -/
theorem prod_near (hr : Nearest r) {σ v w t c : ℝ} (hσ : σ = 1 ∨ σ = -1) (hv : 2 ^ (-500 : ℤ) ≤ v)
    (hw : |w - v| ≤ 2 ^ (-51 : ℤ) * v) (hc : |c| ≤ 1) (ht : |t - c| ≤ 1 / 2 ^ 52) :
    |r (σ * w * t) - σ * v * c| ≤ 8 / 2 ^ 53 * v := by
  have v0 : 0 < v := lt_of_lt_of_le (two_pos _) hv
  have h1 := hr.relAbs (σ * w * t)
  have q2 : (2 : ℝ) ^ (-1075 : ℤ) ≤ 2 ^ (-70 : ℤ) * v := by
    calc (2 : ℝ) ^ (-1075 : ℤ) ≤ 2 ^ (-70 + -500 : ℤ) := two_le (by norm_num)
      _ = 2 ^ (-70 : ℤ) * 2 ^ (-500 : ℤ) := two_add _ _
      _ ≤ _ := mul_le_mul_of_nonneg_left hv (two_pos _).le
  generalize (2 : ℝ) ^ (-1075 : ℤ) = η at *
  clear hv
  have ηq : η ≤ v / 2 ^ 70 := by norm_num at q2 ⊢; linarith
  clear q2
  have e51 : (2 : ℝ) ^ (-51 : ℤ) = 4 / 2 ^ 53 := by norm_num
  have e53 : (2 : ℝ) ^ (-53 : ℤ) = 1 / 2 ^ 53 := by norm_num
  rw [e53] at h1
  rw [e51] at hw
  have s1 : |σ| = 1 := by rcases hσ with rfl | rfl <;> norm_num
  have w1 : |w| ≤ v * (1 + 4 / 2 ^ 53) := by
    have := abs_sub_abs_le_abs_sub w v
    rw [abs_of_pos v0] at this
    linarith
  have h2 : |σ * w * t - σ * v * c| ≤ (6 / 2 ^ 53 + 1 / 2 ^ 60) * v := by
    have : σ * w * t - σ * v * c = σ * (w * (t - c) + (w - v) * c) := by ring
    rw [this, abs_mul, s1, one_mul]
    refine (abs_add_le _ _).trans ?_
    rw [abs_mul, abs_mul]
    have a1 : |w| * |t - c| ≤ v * (1 + 4 / 2 ^ 53) * (1 / 2 ^ 52) := mul_le_mul w1 ht (abs_nonneg _) (by positivity)
    have a2 : |w - v| * |c| ≤ 4 / 2 ^ 53 * v * 1 := mul_le_mul hw hc (abs_nonneg _) (by positivity)
    norm_num at a1 a2 ⊢
    linarith
  have h3 : |σ * v * c| ≤ v := by
    rw [abs_mul, abs_mul, s1, one_mul, abs_of_pos v0]
    exact mul_le_of_le_one_right v0.le hc
  have h4 := abs_sub_abs_le_abs_sub (σ * w * t) (σ * v * c)
  have h5 := abs_sub_le (r (σ * w * t)) (σ * w * t) (σ * v * c)
  norm_num at *
  linarith

/-- The components of the turned direction against the exact ones. -/
theorem dir_near {N E F d k δ α : ℝ} (hE : E = 1 ∨ E = -1) (hk : k = 0 ∨ k = 360 ∨ k = -360)
    (t0 : -(10 * (1 / 2 ^ 43)) ≤ δ - (E * d + k)) (t1 : δ - (E * d + k) ≤ 10 * (1 / 2 ^ 43))
    (hα : |radians δ - radians α| ≤ 19 / 2 ^ 28) (hc : |N * Real.cos F - Real.cos (radians d)| ≤ 4 / 2 ^ 43)
    (hs : |Real.sin F - Real.sin (radians d)| ≤ 1 / 2 ^ 43) :
    |N * Real.cos F - Real.cos (radians α)| ≤ 20 / 2 ^ 28 ∧ |E * Real.sin F - Real.sin (radians α)| ≤ 20 / 2 ^ 28 := by
  have hδ : |radians δ - radians (E * d + k)| ≤ 1 / 2 ^ 43 := by
    rw [← radians_sub]
    unfold radians
    have h1 : |δ - (E * d + k)| ≤ 10 * (1 / 2 ^ 43) := abs_le.2 ⟨t0, t1⟩
    have h2 := Real.pi_lt_d6
    rw [mul_div_assoc, abs_mul, abs_of_pos (by positivity : 0 < Real.pi / 180)]
    calc _ ≤ 10 * (1 / 2 ^ 43) * (4 / 180) := mul_le_mul h1 (by linarith) (by positivity) (by norm_num)
      _ ≤ _ := by norm_num
  obtain ⟨e1, e2⟩ := turn (s := E) (d := d) (δ := E * d + k) hE (by
    rcases hk with rfl | rfl | rfl
    · exact .inl (by ring)
    · exact .inr (.inl rfl)
    · exact .inr (.inr (by ring)))
  have hE1 : |E| = 1 := by rcases hE with rfl | rfl <;> norm_num
  have hs' : |E * Real.sin F - E * Real.sin (radians d)| ≤ 1 / 2 ^ 43 := by
    rw [← mul_sub, abs_mul, hE1, one_mul]; exact hs
  rw [e1] at hc
  rw [e2] at hs'
  have c1 := Real.abs_cos_sub_cos_le (radians δ) (radians (E * d + k))
  have c2 := Real.abs_sin_sub_sin_le (radians δ) (radians (E * d + k))
  have c3 := Real.abs_cos_sub_cos_le (radians δ) (radians α)
  have c4 := Real.abs_sin_sub_sin_le (radians δ) (radians α)
  rw [abs_sub_comm] at c1 c2
  have m1 := abs_sub_le (N * Real.cos F) (Real.cos (radians (E * d + k))) (Real.cos (radians δ))
  have m2 := abs_sub_le (N * Real.cos F) (Real.cos (radians δ)) (Real.cos (radians α))
  have m3 := abs_sub_le (E * Real.sin F) (Real.sin (radians (E * d + k))) (Real.sin (radians δ))
  have m4 := abs_sub_le (E * Real.sin F) (Real.sin (radians δ)) (Real.sin (radians α))
  norm_num at *
  constructor <;> linarith

theorem comp_of_dir {x σ v c a : ℝ} (v0 : 0 < v) (h1 : |x - σ * v * c| ≤ 8 / 2 ^ 53 * v) (h2 : |σ * c - a| ≤ 20 / 2 ^ 28) :
    |x - v * a| ≤ 1 / 2 ^ 23 * v := by
  have h3 : |σ * v * c - v * a| ≤ 20 / 2 ^ 28 * v := by
    rw [show σ * v * c - v * a = v * (σ * c - a) by ring, abs_mul, abs_of_pos v0, mul_comm]
    exact mul_le_mul_of_nonneg_right h2 v0.le
  have h4 := abs_sub_le x (σ * v * c) (v * a)
  norm_num at *
  linarith

/-- C191: a vector of doubles that is not tiny is turned into numbers, never NaN, whatever the pole angle; the components
along the direction of the destination pole, at bearing `azim pq p`, and 90 degrees clockwise of it have errors of at most
`2 ^ -23` of the magnitude, and the magnitude itself is kept to `2 ^ -49`.  The upper bound on the magnitude keeps its square
below the largest double. -/
theorem C191_turn_partial (hr : Nearest r) {L : Lib} (hL : L.Ok r) {acos : ℝ → ℝ}
    (hac : ∀ x, |x| ≤ 1 → |acos x - Real.arccos x| ≤ 1 / 2 ^ 51) {pq : ℤ} {n e p : ℝ} (hn : IsDouble n) (hp : Half pq p)
    (hv : 2 ^ (-500 : ℤ) ≤ √(n ^ 2 + e ^ 2)) (_hv1 : √(n ^ 2 + e ^ 2) ≤ 2 ^ (500 : ℤ)) :
    ∃ n' e', turnD r L acos pq (vectQuad (some n) (some e)) n e p = some (n', e') ∧
      |n' - along (azim pq p) n e| ≤ 1 / 2 ^ 23 * √(n ^ 2 + e ^ 2) ∧
      |e' - along (azim pq p + 90) n e| ≤ 1 / 2 ^ 23 * √(n ^ 2 + e ^ 2) ∧
      |√(n' ^ 2 + e' ^ 2) - √(n ^ 2 + e ^ 2)| ≤ 1 / 2 ^ 49 * √(n ^ 2 + e ^ 2) := by
  have v0 : 0 < √(n ^ 2 + e ^ 2) := lt_of_lt_of_le (two_pos _) hv
  have h0 : ¬ (n = 0 ∧ e = 0) := by
    rintro ⟨rfl, rfl⟩
    simp at v0
  obtain ⟨B, hB, hBq, hBn, hBe⟩ := naz_spec h0
  obtain ⟨b, hb, hbB, hb0, hb1⟩ := naz_near hr hL hac hn hv
  have hBB : radians B = Real.arccos (n / √(n ^ 2 + e ^ 2)) := by
    unfold npArccos at hB
    split_ifs at hB
    exact (Option.some.inj hB).symm
  rw [← hBB] at hbB
  have hvq := (C41_vector_quadrant n e _).1 rfl
  have hh : HalfD (1 / 2 ^ 43) (vectQuad (some n) (some e)) b := by
    unfold HalfD
    rcases hvq with ⟨c, c1, c2⟩ | ⟨c, c1, c2⟩ | ⟨c, c1, c2⟩ | ⟨c, c1, c2⟩ <;> rw [c]
    · exact .inl ⟨.inl rfl, hb0 c1⟩
    · exact .inl ⟨.inr rfl, hb0 c1⟩
    · exact .inr ⟨.inl rfl, hb1 c1⟩
    · exact .inr ⟨.inr rfl, hb1 c1⟩
  have hw := vmag_near hr hL hv
  have hε : ∀ x, |x| ≤ 512 → |r x - x| ≤ 1 / 2 ^ 43 := fun x hx => by
    have := hr.err (x := x) (e := -44) (by norm_num) (by norm_num; exact hx)
    norm_num at this ⊢
    linarith
  obtain ⟨d, hd, d0, d1, hN, hE, k, hk, t0, t1⟩ := table_near (by norm_num) (by norm_num) hε hp hh
  obtain ⟨hF, hc, hs⟩ := fold_near hr hL d0 d1 hN
  have hN' : northSignD r pq (vectQuad (some n) (some e)) b p = 1 ∨ northSignD r pq (vectQuad (some n) (some e)) b p = -1 := by
    rcases hN with ⟨h, -⟩ | ⟨h, -⟩
    · exact .inl h
    · exact .inr h
  have F16 : |foldD r L d| ≤ 16 := hF.trans (by norm_num)
  have hpn := prod_near hr hN' hv hw (Real.abs_cos_le_one (foldD r L d)) (hL.cos _ F16)
  have hpe := prod_near hr hE hv hw (Real.abs_sin_le_one (foldD r L d)) (hL.sin _ F16)
  have hT : turnD r L acos pq (vectQuad (some n) (some e)) n e p =
      some (r (northSignD r pq (vectQuad (some n) (some e)) b p * vmagD r L n e * L.cos (foldD r L d)),
        r (eastSignD r pq (vectQuad (some n) (some e)) b p * vmagD r L n e * L.sin (foldD r L d))) := by
    unfold turnD
    rw [hb]
    simp only [hd]
  have haz : |radians (azim (vectQuad (some n) (some e)) b - azim pq p) -
      radians (azim (vectQuad (some n) (some e)) B - azim pq p)| ≤ 19 / 2 ^ 28 := by
    rw [← radians_sub]
    have : |radians (b - B)| ≤ 19 / 2 ^ 28 := by rw [radians_sub]; exact hbB
    unfold azim
    split_ifs
    · rwa [show b - _ - (B - _) = b - B by ring]
    · rwa [show b - _ - (B - _) = b - B by ring]
    · rwa [show -b - _ - (-B - _) = -(b - B) by ring, radians_neg, abs_neg]
    · rwa [show -b - _ - (-B - _) = -(b - B) by ring, radians_neg, abs_neg]
  have hA := dir_near hE hk t0 t1 haz hc hs
  have e1 : along (azim pq p) n e =
      √(n ^ 2 + e ^ 2) * Real.cos (radians (azim (vectQuad (some n) (some e)) B - azim pq p)) := by
    rw [radians_sub, Real.cos_sub]
    unfold along
    have : azim pq p * Real.pi / 180 = radians (azim pq p) := rfl
    rw [this]
    linear_combination -Real.cos (radians (azim pq p)) * hBn - Real.sin (radians (azim pq p)) * hBe
  have e2 : along (azim pq p + 90) n e =
      √(n ^ 2 + e ^ 2) * Real.sin (radians (azim (vectQuad (some n) (some e)) B - azim pq p)) := by
    rw [radians_sub, Real.sin_sub]
    unfold along
    have : (azim pq p + 90) * Real.pi / 180 = radians (azim pq p) + Real.pi / 2 := by unfold radians; ring
    rw [this, Real.cos_add_pi_div_two, Real.sin_add_pi_div_two]
    linear_combination Real.sin (radians (azim pq p)) * hBn - Real.cos (radians (azim pq p)) * hBe
  refine ⟨_, _, hT, ?_, ?_, ?_⟩
  · rw [e1]
    exact comp_of_dir v0 hpn hA.1
  · rw [e2]
    exact comp_of_dir v0 hpe hA.2
  · have nn := norm_sub_le (r (northSignD r pq (vectQuad (some n) (some e)) b p * vmagD r L n e * L.cos (foldD r L d)))
      (r (eastSignD r pq (vectQuad (some n) (some e)) b p * vmagD r L n e * L.sin (foldD r L d)))
      (northSignD r pq (vectQuad (some n) (some e)) b p * √(n ^ 2 + e ^ 2) * Real.cos (foldD r L d))
      (eastSignD r pq (vectQuad (some n) (some e)) b p * √(n ^ 2 + e ^ 2) * Real.sin (foldD r L d))
    have N2 : northSignD r pq (vectQuad (some n) (some e)) b p ^ 2 = 1 := by rcases hN' with h | h <;> rw [h] <;> norm_num
    have E2 : eastSignD r pq (vectQuad (some n) (some e)) b p ^ 2 = 1 := by rcases hE with h | h <;> rw [h] <;> norm_num
    have : √((northSignD r pq (vectQuad (some n) (some e)) b p * √(n ^ 2 + e ^ 2) * Real.cos (foldD r L d)) ^ 2 +
        (eastSignD r pq (vectQuad (some n) (some e)) b p * √(n ^ 2 + e ^ 2) * Real.sin (foldD r L d)) ^ 2) =
        √(n ^ 2 + e ^ 2) := by
      rw [mul_pow, mul_pow, mul_pow, mul_pow, N2, E2, one_mul, ← mul_add, Real.cos_sq_add_sin_sq, mul_one,
        Real.sqrt_sq v0.le]
    rw [this] at nn
    refine nn.trans ((add_le_add hpn hpe).trans (le_of_eq ?_))
    ring

/-- C191 fails for tiny vectors: the square of `2 ^ -600` is rounded to zero, and so a vector that is not zero turns into NaN,
whatever the pole. -/
theorem C191_tiny_refuted (hr : Nearest r) {L : Lib} (hL : L.Ok r) (acos : ℝ → ℝ) (pq vq : ℤ) (p : ℝ) :
    IsDouble (2 ^ (-600 : ℤ)) ∧ turnD r L acos pq vq (2 ^ (-600 : ℤ)) 0 p = none := by
  have h0 : r ((2 ^ (-600 : ℤ)) ^ 2) = 0 := by
    have e1 : ((2 : ℝ) ^ (-600 : ℤ)) ^ 2 = 2 ^ (-1200 : ℤ) := by rw [sq, ← two_add]; norm_num
    rw [e1]
    have h1 := hr.best (2 ^ (-1200 : ℤ)) 0 isDouble_zero
    rw [zero_sub, abs_neg, abs_of_pos (two_pos _)] at h1
    obtain ⟨m, f, -, hf, h2⟩ := hr.mem (2 ^ (-1200 : ℤ))
    by_contra hc
    have hm : m ≠ 0 := by
      rintro rfl
      exact hc (by rw [h2]; simp)
    have h3 : (2 : ℝ) ^ (-1074 : ℤ) ≤ |r (2 ^ (-1200 : ℤ))| := by
      rw [h2, abs_mul, abs_of_pos (two_pos f)]
      have h4 : (1 : ℝ) ≤ |(m : ℝ)| := by exact_mod_cast Int.one_le_abs hm
      calc (2 : ℝ) ^ (-1074 : ℤ) ≤ 2 ^ f := two_le hf
        _ ≤ _ := le_mul_of_one_le_left (two_pos f).le h4
    have h5 := abs_sub_abs_le_abs_sub (r (2 ^ (-1200 : ℤ))) (2 ^ (-1200 : ℤ))
    rw [abs_of_pos (two_pos (-1200))] at h5
    have h6 : (2 : ℝ) ^ (-1200 : ℤ) + 2 ^ (-1200 : ℤ) = 2 ^ (-1199 : ℤ) := by
      rw [show (-1199 : ℤ) = 1 + -1200 by norm_num, two_add]; norm_num; ring
    have h7 : (2 : ℝ) ^ (-1199 : ℤ) < 2 ^ (-1074 : ℤ) := zpow_lt_zpow_right₀ (by norm_num) (by norm_num)
    generalize (2 : ℝ) ^ (-1074 : ℤ) = x at *
    generalize (2 : ℝ) ^ (-1199 : ℤ) = y at *
    generalize (2 : ℝ) ^ (-1200 : ℤ) = z at *
    linarith
  refine ⟨⟨1, -600, by norm_num, by norm_num, by simp⟩, ?_⟩
  have hv : vmagD r L (2 ^ (-600 : ℤ)) 0 = 0 := by
    unfold vmagD
    rw [h0, zero_pow (by norm_num), hr.zero, add_zero, hr.zero, hL.sqrt 0 le_rfl, Real.sqrt_zero, hr.zero]
  unfold turnD nazD
  rw [hv, if_pos rfl]

/-- C191 cannot be had with full precision: an east component of `2 ^ -28` beside a north component of 1 is lost, the result is
the one for a vector due north, whatever the pole, while the exact results differ by `2 ^ -29` or more. -/
theorem C191_direction_refuted (hr : Nearest r) {L : Lib} (hL : L.Ok r) (acos : ℝ → ℝ) (pq vq : ℤ) (p : ℝ) :
    IsDouble (2 ^ (-28 : ℤ)) ∧ turnD r L acos pq vq 1 (2 ^ (-28 : ℤ)) p = turnD r L acos pq vq 1 0 p ∧
      ∀ A : ℝ, 1 / 2 ^ 29 ≤ |along A 1 (2 ^ (-28 : ℤ)) - along A 1 0| ∨
        1 / 2 ^ 29 ≤ |along (A + 90) 1 (2 ^ (-28 : ℤ)) - along (A + 90) 1 0| := by
  have d1 : IsDouble 1 := by exact_mod_cast isDouble_nat (n := 1) (by norm_num)
  have h1 : r 1 = 1 := hr.keep d1
  have h2 : r (1 + 2 ^ (-56 : ℤ)) = 1 := by
    have := hr.near (x := 1 + 2 ^ (-56 : ℤ)) (e := -53) (k := 2 ^ 53) (by norm_num) (by norm_num) (by norm_num)
      (by push_cast; norm_num [abs_of_neg])
    rw [this]; norm_num
  have h3 : r ((2 ^ (-28 : ℤ)) ^ 2) = 2 ^ (-56 : ℤ) := by
    have e1 : ((2 : ℝ) ^ (-28 : ℤ)) ^ 2 = 2 ^ (-56 : ℤ) := by rw [sq, ← two_add]; norm_num
    rw [e1]
    exact hr.keep ⟨1, -56, by norm_num, by norm_num, by simp⟩
  have hv : vmagD r L 1 (2 ^ (-28 : ℤ)) = vmagD r L 1 0 := by
    unfold vmagD
    rw [h3, zero_pow (by norm_num), one_pow, h1, hr.zero, add_zero, h1, h2]
  refine ⟨⟨1, -28, by norm_num, by norm_num, by simp⟩, ?_, fun A => ?_⟩
  · unfold turnD nazD
    rw [hv]
  · have e2 : along A 1 (2 ^ (-28 : ℤ)) - along A 1 0 = 2 ^ (-28 : ℤ) * Real.sin (A * Real.pi / 180) := by
      unfold along; ring
    have e3 : along (A + 90) 1 (2 ^ (-28 : ℤ)) - along (A + 90) 1 0 = 2 ^ (-28 : ℤ) * Real.cos (A * Real.pi / 180) := by
      unfold along
      rw [show (A + 90) * Real.pi / 180 = A * Real.pi / 180 + Real.pi / 2 by ring, Real.sin_add_pi_div_two]
      ring
    rw [e2, e3, abs_mul, abs_mul, abs_of_pos (two_pos _)]
    have h4 := Real.sin_sq_add_cos_sq (A * Real.pi / 180)
    generalize Real.sin (A * Real.pi / 180) = s at *
    generalize Real.cos (A * Real.pi / 180) = c at *
    have e4 : (1 : ℝ) / 2 ^ 29 = 2 ^ (-28 : ℤ) * (1 / 2) := by norm_num
    rw [e4]
    rcases le_or_gt (1 / 2) |s| with hs | hs
    · exact .inl (mul_le_mul_of_nonneg_left hs (two_pos _).le)
    · refine .inr (mul_le_mul_of_nonneg_left ?_ (two_pos _).le)
      by_contra hc
      push Not at hc
      have a1 := abs_lt.1 hs
      have a2 := abs_lt.1 hc
      nlinarith [sq_lt_sq' a1.1 a1.2, sq_lt_sq' a2.1 a2.2]

/-- A vector of 5 with north part 3 and east part 4 and a pole 60 degrees to the west: all the conditions hold. -/
example (hr : Nearest r) : ∃ n' e', turnD r (havLib r) Real.arccos 2 (vectQuad (some 3) (some 4)) 3 4 60 = some (n', e') ∧
    |n' - along (-60) 3 4| ≤ 5 / 2 ^ 23 ∧ |√(n' ^ 2 + e' ^ 2) - 5| ≤ 5 / 2 ^ 49 := by
  have h5 : √((3 : ℝ) ^ 2 + 4 ^ 2) = 5 := by
    rw [show (3 : ℝ) ^ 2 + 4 ^ 2 = 5 ^ 2 by norm_num, Real.sqrt_sq (by norm_num)]
  have d3 : IsDouble 3 := by exact_mod_cast isDouble_nat (n := 3) (by norm_num)
  have b0 : (2 : ℝ) ^ (-500 : ℤ) ≤ 5 := (two_le (by norm_num : (-500 : ℤ) ≤ 0)).trans (by norm_num)
  have b1 : (5 : ℝ) ≤ 2 ^ (500 : ℤ) := le_trans (by norm_num : (5 : ℝ) ≤ 2 ^ (3 : ℤ)) (two_le (by norm_num))
  obtain ⟨n', e', h1, h2, -, h3⟩ := C191_turn_partial hr (havLib_ok hr) (acos := Real.arccos) (fun x _ => by simp) (pq := 2)
    (n := 3) (e := 4) (p := 60) d3 (.inl ⟨.inr rfl, by norm_num, by norm_num⟩) (by rw [h5]; exact b0) (by rw [h5]; exact b1)
  rw [h5] at h2 h3
  have ha : azim 2 60 = -60 := by unfold azim; simp
  rw [ha] at h2
  exact ⟨n', e', h1, h2.trans (by norm_num), h3.trans (by norm_num)⟩

end Ocb.Dbl
