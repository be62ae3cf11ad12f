import Mathlib.Tactic.Positivity
import Mathlib.Tactic.Push
import Verif.Model.Double

/-!
# Rounding to doubles

Facts about `Ocb.Dbl.Nearest`, and that rounding to the nearest double with ties to even exists.
-/

set_option autoImplicit false

namespace Ocb.Dbl

open Ocb.Text (roundEven)

theorem two_pos (e : ℤ) : (0 : ℝ) < 2 ^ e := by positivity

theorem two_le {e f : ℤ} (h : e ≤ f) : (2 : ℝ) ^ e ≤ 2 ^ f := zpow_le_zpow_right₀ (by norm_num) h

theorem two_add (e f : ℤ) : (2 : ℝ) ^ (e + f) = 2 ^ e * 2 ^ f := zpow_add₀ (by norm_num) e f

/-- A power of two with a non-negative exponent, as a whole number. -/
theorem two_nat {e : ℤ} (h : 0 ≤ e) : (2 : ℝ) ^ e = ((2 ^ e.toNat : ℤ) : ℝ) := by
  obtain ⟨n, rfl⟩ := Int.eq_ofNat_of_zero_le h
  simp

/-- Multiples of a power of two are multiples of every smaller one. -/
theorem regrid {e f : ℤ} (h : e ≤ f) (n : ℤ) : ∃ k : ℤ, (n : ℝ) * 2 ^ f = k * 2 ^ e := by
  refine ⟨n * 2 ^ (f - e).toNat, ?_⟩
  have : (2 : ℝ) ^ f = 2 ^ (f - e) * 2 ^ e := by rw [← two_add]; congr 1; omega
  rw [this, two_nat (by omega)]
  push_cast
  ring

/-- A multiple of `2 ^ e` up to `2 ^ (e + 53)` in size is a double. -/
theorem isDouble_grid {e k : ℤ} {x : ℝ} (he : -1074 ≤ e) (hk : x = k * 2 ^ e) (hx : |x| ≤ 2 ^ (e + 53)) : IsDouble x := by
  have h1 : |(k : ℝ)| ≤ 2 ^ 53 := by
    rw [hk, abs_mul, abs_of_pos (two_pos e), add_comm, two_add] at hx
    have := le_of_mul_le_mul_right hx (two_pos e)
    exact_mod_cast this
  have h2 : |k| ≤ 2 ^ 53 := by exact_mod_cast h1
  rcases h2.lt_or_eq with h | h
  · exact ⟨k, e, h, he, hk⟩
  · have : k = 2 ^ 53 ∨ k = -2 ^ 53 := by
      rcases abs_choice k with h' | h' <;> omega
    rcases this with rfl | rfl
    · refine ⟨2 ^ 52, e + 1, by norm_num, by omega, ?_⟩
      rw [hk, two_add]; push_cast; ring
    · refine ⟨-2 ^ 52, e + 1, by norm_num, by omega, ?_⟩
      rw [hk, two_add]; push_cast; ring

theorem isDouble_int {n : ℤ} (h : |n| ≤ 2 ^ 53) : IsDouble n :=
  isDouble_grid (e := 0) (k := n) (by norm_num) (by simp) (by
    have : ((|n| : ℤ) : ℝ) ≤ ((2 ^ 53 : ℤ) : ℝ) := Int.cast_le.2 h
    rw [Int.cast_abs] at this
    norm_num at this ⊢
    exact this)

theorem isDouble_nat {n : ℕ} (h : n ≤ 2 ^ 53) : IsDouble n := by
  have := isDouble_int (n := n) (by rw [abs_of_nonneg (by positivity)]; exact_mod_cast h)
  exact_mod_cast this

theorem isDouble_zero : IsDouble 0 := ⟨0, 0, by norm_num, by norm_num, by simp⟩

theorem IsDouble.neg {x : ℝ} (h : IsDouble x) : IsDouble (-x) := by
  obtain ⟨m, e, hm, he, rfl⟩ := h
  exact ⟨-m, e, by rwa [abs_neg], he, by push_cast; ring⟩

namespace Nearest

variable {r : ℝ → ℝ} (hr : Nearest r)

include hr

/-- Doubles are kept. -/
theorem keep {x : ℝ} (h : IsDouble x) : r x = x := by
  have := hr.best x x h
  rw [sub_self, abs_zero] at this
  linarith [abs_eq_zero.1 (le_antisymm this (abs_nonneg _))]

/-- Rounding is monotone. -/
theorem mono {x y : ℝ} (h : x ≤ y) : r x ≤ r y := by
  rcases h.lt_or_eq with h | rfl
  · by_contra hc
    push Not at hc
    have h1 := hr.best x (r y) (hr.mem y)
    have h2 := hr.best y (r x) (hr.mem x)
    rcases abs_cases (r x - x) with ⟨a1, b1⟩ | ⟨a1, b1⟩ <;> rcases abs_cases (r y - x) with ⟨a2, b2⟩ | ⟨a2, b2⟩ <;>
      rcases abs_cases (r y - y) with ⟨a3, b3⟩ | ⟨a3, b3⟩ <;> rcases abs_cases (r x - y) with ⟨a4, b4⟩ | ⟨a4, b4⟩ <;>
      linarith
  · rfl

theorem le_dbl {x y : ℝ} (hy : IsDouble y) (h : x ≤ y) : r x ≤ y := by
  have := hr.mono h
  rwa [hr.keep hy] at this

theorem dbl_le {x y : ℝ} (hy : IsDouble y) (h : y ≤ x) : y ≤ r x := by
  have := hr.mono h
  rwa [hr.keep hy] at this

/-- The error is at most half a unit in the last place. -/
theorem err {x : ℝ} {e : ℤ} (he : -1074 ≤ e) (h : |x| ≤ 2 ^ (e + 53)) : |r x - x| ≤ 2 ^ e / 2 := by
  have hp := two_pos e
  have h1 := abs_sub_round (x / 2 ^ e)
  have h2 : |(round (x / 2 ^ e) : ℝ) * 2 ^ e - x| ≤ 2 ^ e / 2 := by
    have : (round (x / 2 ^ e) : ℝ) * 2 ^ e - x = -((x / 2 ^ e - round (x / 2 ^ e)) * 2 ^ e) := by
      field_simp; ring
    rw [this, abs_neg, abs_mul, abs_of_pos hp]
    nlinarith
  refine (hr.best x _ (isDouble_grid he rfl ?_)).trans h2
  rw [add_comm, two_add] at h ⊢
  rw [abs_mul, abs_of_pos hp]
  apply mul_le_mul_of_nonneg_right _ hp.le
  have h3 : |x / 2 ^ e| ≤ 2 ^ 53 := by
    rw [abs_div, abs_of_pos hp, div_le_iff₀ hp]
    exact_mod_cast h
  have h4 : |(round (x / 2 ^ e) : ℝ)| < 2 ^ 53 + 1 := by
    have := abs_sub_abs_le_abs_sub (round (x / 2 ^ e) : ℝ) (x / 2 ^ e)
    rw [abs_sub_comm (round (x / 2 ^ e) : ℝ)] at this
    linarith
  have h5 : |round (x / 2 ^ e)| < 2 ^ 53 + 1 := by exact_mod_cast h4
  have h6 : |round (x / 2 ^ e)| ≤ 2 ^ 53 := by omega
  exact_mod_cast h6

end Nearest

/-- Halves to even is rounding to a nearest whole number. -/
theorem roundEven_best (x : ℝ) (k : ℤ) : |(roundEven x : ℝ) - x| ≤ |k - x| := by
  have h0 := Int.floor_le x
  have h1 := Int.lt_floor_add_one x
  have hk : (k : ℝ) ≤ ⌊x⌋ ∨ (⌊x⌋ : ℝ) + 1 ≤ k := by
    rcases le_or_gt k ⌊x⌋ with h | h
    · left; exact_mod_cast h
    · right; exact_mod_cast h
  have hk' : min (x - ⌊x⌋) (⌊x⌋ + 1 - x) ≤ |k - x| := by
    rcases hk with h | h
    · rw [abs_of_nonpos (by linarith)]
      exact (min_le_left _ _).trans (by linarith)
    · rw [abs_of_nonneg (by linarith)]
      exact (min_le_right _ _).trans (by linarith)
  refine le_trans ?_ hk'
  unfold roundEven
  split_ifs <;> push_cast <;> first
    | (rw [abs_of_nonpos (by linarith)]; exact le_min (by linarith) (by linarith))
    | (rw [abs_of_nonneg (by linarith)]; exact le_min (by linarith) (by linarith))

theorem lastBit_ge (x : ℝ) : -1074 ≤ lastBit x := le_max_right _ _

theorem lastBit_bound (x : ℝ) : |x| < 2 ^ (lastBit x + 53) := by
  have h1 := Int.lt_zpow_succ_log_self (b := 2) (by norm_num) |x|
  push_cast at h1
  refine h1.trans_le (two_le ?_)
  have : Int.log 2 |x| - 52 ≤ lastBit x := le_max_left _ _
  omega

/-- Ties to even is a way of rounding to the nearest double. -/
theorem toDouble_nearest : Nearest toDouble := by
  constructor
  · intro x
    have hp := two_pos (lastBit x)
    refine isDouble_grid (lastBit_ge x) rfl ?_
    have hb := lastBit_bound x
    rw [add_comm, two_add] at hb ⊢
    unfold toDouble
    rw [abs_mul, abs_of_pos hp]
    apply mul_le_mul_of_nonneg_right _ hp.le
    have h3 : |x / 2 ^ lastBit x| < 2 ^ 53 := by
      rw [abs_div, abs_of_pos hp, div_lt_iff₀ hp]
      exact_mod_cast hb
    have h2 := roundEven_best (x / 2 ^ lastBit x) ⌊x / 2 ^ lastBit x⌋
    have h1 : |(⌊x / 2 ^ lastBit x⌋ : ℝ) - x / 2 ^ lastBit x| < 1 := by
      rw [abs_sub_comm, Int.self_sub_floor, abs_of_nonneg (Int.fract_nonneg _)]
      exact Int.fract_lt_one _
    have h4 : |(roundEven (x / 2 ^ lastBit x) : ℝ)| < 2 ^ 53 + 1 := by
      have := abs_sub_abs_le_abs_sub (roundEven (x / 2 ^ lastBit x) : ℝ) (x / 2 ^ lastBit x)
      linarith
    have h5 : |roundEven (x / 2 ^ lastBit x)| < 2 ^ 53 + 1 := by exact_mod_cast h4
    have h6 : |roundEven (x / 2 ^ lastBit x)| ≤ 2 ^ 53 := by omega
    exact_mod_cast h6
  · intro x y hy
    have hp := two_pos (lastBit x)
    have grid : ∀ k : ℤ, |toDouble x - x| ≤ |k * 2 ^ lastBit x - x| := by
      intro k
      have h := roundEven_best (x / 2 ^ lastBit x) k
      have e : ∀ n : ℤ, |(n : ℝ) * 2 ^ lastBit x - x| = |n - x / 2 ^ lastBit x| * 2 ^ lastBit x := by
        intro n
        conv_rhs => rw [← abs_of_pos hp, ← abs_mul]
        rw [abs_of_pos hp]
        congr 1
        field_simp
      unfold toDouble
      rw [e, e]
      exact mul_le_mul_of_nonneg_right h hp.le
    obtain ⟨n, f, hn, hf, rfl⟩ := hy
    rcases le_or_gt (lastBit x) f with h | h
    · obtain ⟨k, hk⟩ := regrid h n
      rw [hk]
      exact grid k
    · by_cases hx : x = 0
      · have := grid 0
        subst hx
        simp only [Int.cast_zero, zero_mul, sub_self, abs_zero] at this
        exact this.trans (abs_nonneg _)
      · have hE : lastBit x = Int.log 2 |x| - 52 := by
          unfold lastBit at h ⊢
          rcases max_choice (Int.log 2 |x| - 52) (-1074) with h' | h'
          · exact h'
          · rw [h'] at h; omega
        have h1 := Int.zpow_log_le_self (b := 2) (by norm_num) (abs_pos.2 hx)
        push_cast at h1
        have h2 : |(n : ℝ) * 2 ^ f| ≤ 2 ^ Int.log 2 |x| := by
          rw [abs_mul, abs_of_pos (two_pos f)]
          have h3 : |(n : ℝ)| ≤ 2 ^ 53 := by exact_mod_cast hn.le
          calc |(n : ℝ)| * 2 ^ f ≤ 2 ^ (53 : ℤ) * 2 ^ f :=
                mul_le_mul_of_nonneg_right (by exact_mod_cast h3) (two_pos f).le
            _ = 2 ^ (53 + f) := (two_add _ _).symm
            _ ≤ _ := two_le (by omega)
        have h4 : (2 : ℝ) ^ Int.log 2 |x| = 4503599627370496 * 2 ^ lastBit x := by
          have e : Int.log 2 |x| = 52 + lastBit x := by omega
          rw [e, two_add]
          norm_num
        have h5 : |x| - 2 ^ Int.log 2 |x| ≤ |(n : ℝ) * 2 ^ f - x| := by
          have := abs_sub_abs_le_abs_sub x ((n : ℝ) * 2 ^ f)
          rw [abs_sub_comm] at this
          linarith
        refine le_trans ?_ h5
        rcases lt_or_gt_of_ne hx with hneg | hpos
        · have := grid (-2 ^ 52)
          norm_num at this
          refine this.trans ?_
          rw [abs_of_neg hneg] at h1 h4 ⊢
          rw [← h4, abs_of_nonneg (by linarith)]
          linarith
        · have := grid (2 ^ 52)
          norm_num at this
          refine this.trans ?_
          rw [abs_of_pos hpos] at h1 h4 ⊢
          rw [← h4, abs_of_nonpos (by linarith)]
          linarith

end Ocb.Dbl
