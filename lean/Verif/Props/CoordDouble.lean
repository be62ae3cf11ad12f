import Mathlib.Analysis.SpecialFunctions.Trigonometric.Bounds
import Verif.Props.Coord
import Verif.Model.CoordDouble
import Verif.Props.RadDouble
import Verif.Props.ScaleDouble

/-!
# C186 to C188: the coordinate transforms of `OCBoundary` in double precision
-/

set_option autoImplicit false

namespace Ocb.Dbl

open Ocb.Coord

section Basic

variable {r : ℝ → ℝ} (hr : Nearest r)

include hr

theorem err128 {x : ℝ} (h : |x| ≤ 128) : |r x - x| ≤ 1 / 2 ^ 47 := by
  have := hr.err (x := x) (e := -46) (by norm_num) (by norm_num; linarith)
  norm_num at this ⊢
  exact this

theorem err256 {x : ℝ} (h : |x| ≤ 256) : |r x - x| ≤ 1 / 2 ^ 46 := by
  have := hr.err (x := x) (e := -45) (by norm_num) (by norm_num; linarith)
  norm_num at this ⊢
  exact this

/-- A rounded product of a length and a sine or cosine, both with errors. -/
theorem comp_err {ρ ρ' t t' a b : ℝ} (hρ : |ρ| ≤ 90) (hρ' : |ρ' - ρ| ≤ a) (ha : a ≤ 1) (ht : |t| ≤ 1) (ht' : |t' - t| ≤ b)
    (hb : b ≤ 1 / 4) : |r (ρ' * t') - ρ * t| ≤ 91 * b + a + 1 / 2 ^ 47 := by
  have h1 : |ρ'| ≤ 91 := by linarith [abs_sub_abs_le_abs_sub ρ' ρ]
  have h2 : |t'| ≤ 5 / 4 := by linarith [abs_sub_abs_le_abs_sub t' t]
  have h3 : |ρ' * t'| ≤ 128 := by
    rw [abs_mul]
    calc _ ≤ 91 * (5 / 4) := mul_le_mul h1 h2 (abs_nonneg _) (by norm_num)
      _ ≤ _ := by norm_num
  have h4 := err128 hr h3
  have h5 : |ρ' * t' - ρ * t| ≤ 91 * b + a := by
    have : ρ' * t' - ρ * t = ρ' * (t' - t) + (ρ' - ρ) * t := by ring
    rw [this]
    refine (abs_add_le _ _).trans (add_le_add ?_ ?_)
    · rw [abs_mul]; exact mul_le_mul h1 ht' (abs_nonneg _) (by norm_num)
    · rw [abs_mul]
      calc _ ≤ a * 1 := mul_le_mul hρ' ht (abs_nonneg _) ((abs_nonneg _).trans hρ')
        _ = a := mul_one a
  have := abs_sub_le (r (ρ' * t')) (ρ' * t') (ρ * t)
  linarith

/-- A rounded quotient of rounded numbers. -/
theorem scale_err {A A' R R' : ℝ} (hA : 1 / 2 ^ 20 ≤ A) (hA' : |A' - A| ≤ 2 ^ (-53 : ℤ) * A) (hR : 1 / 2 ^ 20 ≤ R)
    (hR1 : R ≤ 2 ^ 20) (hR' : |R' - R| ≤ 2 ^ (-53 : ℤ) * R) : |r (A' / R') - A / R| ≤ 4 / 2 ^ 53 * (A / R) := by
  have A0 : 0 < A := lt_of_lt_of_le (by norm_num) hA
  have R0 : 0 < R := lt_of_lt_of_le (by norm_num) hR
  have S0 : 0 < A / R := div_pos A0 R0
  have ε1 : (2 : ℝ) ^ (-53 : ℤ) = 1 / 2 ^ 53 := by norm_num
  rw [ε1] at hA' hR'
  obtain ⟨a1, a2⟩ := abs_le.1 hA'
  obtain ⟨b1, b2⟩ := abs_le.1 hR'
  have R1 : (1 - 1 / 2 ^ 53) * R ≤ R' := by linarith
  have R2 : 0 < R' := lt_of_lt_of_le (mul_pos (by norm_num) R0) R1
  have S1 : 1 / 2 ^ 40 ≤ A / R := by
    rw [le_div_iff₀ R0]
    calc (1 / 2 ^ 40 : ℝ) * R ≤ 1 / 2 ^ 40 * 2 ^ 20 := mul_le_mul_of_nonneg_left hR1 (by norm_num)
      _ = 1 / 2 ^ 20 := by norm_num
      _ ≤ A := hA
  have h1 : |A' / R' - A / R| ≤ 5 / 2 / 2 ^ 53 * (A / R) := by
    have : A' / R' - A / R = ((A' - A) * R - A * (R' - R)) / (R' * R) := by field_simp; ring
    rw [this, abs_div, abs_of_pos (mul_pos R2 R0), div_le_iff₀ (mul_pos R2 R0)]
    calc _ ≤ |(A' - A) * R| + |A * (R' - R)| := abs_sub _ _
      _ ≤ 1 / 2 ^ 53 * A * R + A * (1 / 2 ^ 53 * R) := by
        rw [abs_mul, abs_mul, abs_of_pos R0, abs_of_pos A0]
        exact add_le_add (mul_le_mul_of_nonneg_right hA' R0.le) (mul_le_mul_of_nonneg_left hR' A0.le)
      _ ≤ 5 / 2 / 2 ^ 53 * A * ((1 - 1 / 2 ^ 53) * R) := by nlinarith [mul_pos A0 R0]
      _ ≤ 5 / 2 / 2 ^ 53 * A * R' := mul_le_mul_of_nonneg_left R1 (mul_nonneg (by norm_num) A0.le)
      _ = 5 / 2 / 2 ^ 53 * (A / R) * (R' * R) := by field_simp
  have h2 := abs_sub_abs_le_abs_sub (A' / R') (A / R)
  have h3 := abs_sub_abs_le_abs_sub (A / R) (A' / R')
  rw [abs_sub_comm] at h3
  rw [abs_of_pos S0] at h2 h3
  have h4 := hr.rel (x := A' / R') ((two_le (show (-1022 : ℤ) ≤ -42 by norm_num)).trans (by norm_num at S1 h1 h3 ⊢; linarith))
  rw [ε1] at h4
  have h5 := abs_sub_le (r (A' / R')) (A' / R') (A / R)
  norm_num at h1 h2 h4 ⊢
  linarith

/-- A rounded product of a difference of positions with the scale. -/
theorem scaled_err {D Δ s S a : ℝ} (hS : 1 / 2 ^ 40 ≤ S) (hs : |s - S| ≤ 4 / 2 ^ 53 * S) (hΔ : |Δ| ≤ 180) (hD : |D - Δ| ≤ a)
    (ha : a ≤ 1) : |r (D * s) - Δ * S| ≤ (1001 / 1000 * a + 8 / 2 ^ 46) * S := by
  have S0 : 0 < S := lt_of_lt_of_le (by norm_num) hS
  have a0 : 0 ≤ a := (abs_nonneg _).trans hD
  have h1 : |s| ≤ 1001 / 1000 * S := by
    have := abs_sub_abs_le_abs_sub s S
    rw [abs_of_pos S0] at this
    norm_num at hs ⊢
    linarith
  have h2 : |D| ≤ 181 := by linarith [abs_sub_abs_le_abs_sub D Δ]
  have h3 : |D * s - Δ * S| ≤ 1001 / 1000 * a * S + 720 / 2 ^ 53 * S := by
    have : D * s - Δ * S = (D - Δ) * s + Δ * (s - S) := by ring
    rw [this]
    refine (abs_add_le _ _).trans (add_le_add ?_ ?_)
    · rw [abs_mul]
      calc _ ≤ a * (1001 / 1000 * S) := mul_le_mul hD h1 (abs_nonneg _) a0
        _ = _ := by ring
    · rw [abs_mul]
      calc _ ≤ 180 * (4 / 2 ^ 53 * S) := mul_le_mul hΔ hs (abs_nonneg _) (by norm_num)
        _ = _ := by ring
  have h4 := hr.relAbs (D * s)
  have h5 : |D * s| ≤ 182 * S := by
    rw [abs_mul]
    calc _ ≤ 181 * (1001 / 1000 * S) := mul_le_mul h2 h1 (abs_nonneg _) (by norm_num)
      _ ≤ 182 * S := by linarith
  have h6 : (2 : ℝ) ^ (-1075 : ℤ) ≤ 1 / 2 ^ 60 * S :=
    (two_le (show (-1075 : ℤ) ≤ -100 by norm_num)).trans (by norm_num at hS ⊢; linarith)
  have h7 := abs_sub_le (r (D * s)) (D * s) (Δ * S)
  generalize (2 : ℝ) ^ (-1075 : ℤ) = η at *
  generalize |D * s| = p at *
  rw [show (2 : ℝ) ^ (-53 : ℤ) = 1 / 2 ^ 53 by norm_num] at h4
  have h8 : (1 / 2 ^ 53 : ℝ) * p ≤ 1 / 2 ^ 53 * (182 * S) := mul_le_mul_of_nonneg_left h5 (by norm_num)
  have h9 : (1 / 2 ^ 53 * 182 + 1 / 2 ^ 60 + 720 / 2 ^ 53 : ℝ) * S ≤ 8 / 2 ^ 46 * S :=
    mul_le_mul_of_nonneg_right (by norm_num) S0.le
  linarith

/-- The rounded length of a vector. -/
theorem norm_err {L : Lib} (hL : L.Ok r) (x y : ℝ) :
    |L.sqrt (r (r (x ^ 2) + r (y ^ 2))) - √(x ^ 2 + y ^ 2)| ≤ 5 / 2 ^ 53 * √(x ^ 2 + y ^ 2) + 1 / 2 ^ 100 := by
  have hx := hr.relAbs (x ^ 2)
  have hy := hr.relAbs (y ^ 2)
  rw [abs_of_nonneg (sq_nonneg x)] at hx
  rw [abs_of_nonneg (sq_nonneg y)] at hy
  have x0 := hr.nonneg (sq_nonneg x)
  have y0 := hr.nonneg (sq_nonneg y)
  have hs := hr.relAbs (r (x ^ 2) + r (y ^ 2))
  rw [abs_of_nonneg (add_nonneg x0 y0)] at hs
  have q0 := hr.nonneg (add_nonneg x0 y0)
  rw [hL.sqrt _ q0]
  have N0 : 0 ≤ √(x ^ 2 + y ^ 2) := Real.sqrt_nonneg _
  have NN : √(x ^ 2 + y ^ 2) ^ 2 = x ^ 2 + y ^ 2 := Real.sq_sqrt (add_nonneg (sq_nonneg _) (sq_nonneg _))
  have hd := hr.relAbs (√(r (r (x ^ 2) + r (y ^ 2))))
  have η1 : (2 : ℝ) ^ (-1075 : ℤ) ≤ (1 / 2 ^ 110) ^ 2 :=
    (two_le (show (-1075 : ℤ) ≤ -220 by norm_num)).trans (by norm_num)
  have η0 := two_pos (-1075)
  have ε0 : (2 : ℝ) ^ (-53 : ℤ) = 1 / 2 ^ 53 := by norm_num
  rw [ε0] at hx hy hs hd
  generalize (2 : ℝ) ^ (-1075 : ℤ) = η at *
  generalize √(x ^ 2 + y ^ 2) = N at *
  generalize r (r (x ^ 2) + r (y ^ 2)) = q at *
  generalize r (x ^ 2) = X at *
  generalize r (y ^ 2) = Y at *
  obtain ⟨x1, x2⟩ := abs_le.1 hx
  obtain ⟨y1, y2⟩ := abs_le.1 hy
  obtain ⟨s1, s2⟩ := abs_le.1 hs
  have u1 : q ≤ (1 + 3 / 2 ^ 53) * N ^ 2 + 4 * (1 / 2 ^ 110) ^ 2 := by
    rw [NN]
    norm_num at x1 x2 y1 y2 s1 s2 η1 ⊢
    nlinarith [sq_nonneg x, sq_nonneg y]
  have u2 : (1 - 3 / 2 ^ 53) * N ^ 2 - 4 * (1 / 2 ^ 110) ^ 2 ≤ q := by
    rw [NN]
    norm_num at x1 x2 y1 y2 s1 s2 η1 ⊢
    nlinarith [sq_nonneg x, sq_nonneg y]
  have v1 : √q ≤ (1 + 3 / 2 ^ 53) * N + 2 * (1 / 2 ^ 110) := by
    apply Real.sqrt_le_iff.2
    refine ⟨by positivity, u1.trans ?_⟩
    nlinarith [mul_nonneg N0 N0, N0]
  have v2 : (1 - 3 / 2 ^ 53) * N - 2 * (1 / 2 ^ 110) ≤ √q := by
    rcases le_or_gt ((1 - 3 / 2 ^ 53) * N) (2 * (1 / 2 ^ 110)) with h | h
    · linarith [Real.sqrt_nonneg q]
    · apply Real.le_sqrt_of_sq_le
      refine le_trans ?_ u2
      have k : (1 - 3 / 2 ^ 53 : ℝ) * ((1 - 3 / 2 ^ 53) * N ^ 2) ≤ (1 - 3 / 2 ^ 53) * N ^ 2 := by
        have : (0 : ℝ) ≤ (1 - 3 / 2 ^ 53) * N ^ 2 := mul_nonneg (by norm_num) (sq_nonneg N)
        have h9 : (1 - 3 / 2 ^ 53 : ℝ) ≤ 1 := by norm_num
        nlinarith
      nlinarith
  rw [abs_of_nonneg (Real.sqrt_nonneg q)] at hd
  obtain ⟨d1, d2⟩ := abs_le.1 hd
  rw [abs_le]
  norm_num at v1 v2 d1 d2 η1 ⊢
  constructor <;> linarith

end Basic

/-- Lengths of vectors differ by at most the sum of the differences of the components. -/
theorem norm_sub_le (a b c d : ℝ) : |√(a ^ 2 + b ^ 2) - √(c ^ 2 + d ^ 2)| ≤ |a - c| + |b - d| := by
  have key : ∀ a b c d : ℝ, √(a ^ 2 + b ^ 2) ≤ √(c ^ 2 + d ^ 2) + (|a - c| + |b - d|) := by
    intro a b c d
    apply Real.sqrt_le_iff.2
    refine ⟨by positivity, ?_⟩
    have h1 : |c| ≤ √(c ^ 2 + d ^ 2) := Real.abs_le_sqrt (by nlinarith [sq_nonneg d])
    have h2 : |d| ≤ √(c ^ 2 + d ^ 2) := Real.abs_le_sqrt (by nlinarith [sq_nonneg c])
    have h3 := Real.sq_sqrt (add_nonneg (sq_nonneg c) (sq_nonneg d))
    have h4 : a ^ 2 ≤ c ^ 2 + 2 * |c| * |a - c| + |a - c| ^ 2 := by
      have : a = c + (a - c) := by ring
      have e : c * (a - c) ≤ |c| * |a - c| := by rw [← abs_mul]; exact le_abs_self _
      have f : (a - c) ^ 2 = |a - c| ^ 2 := (sq_abs _).symm
      nlinarith
    have h5 : b ^ 2 ≤ d ^ 2 + 2 * |d| * |b - d| + |b - d| ^ 2 := by
      have e : d * (b - d) ≤ |d| * |b - d| := by rw [← abs_mul]; exact le_abs_self _
      have f : (b - d) ^ 2 = |b - d| ^ 2 := (sq_abs _).symm
      nlinarith
    nlinarith [mul_le_mul_of_nonneg_right h1 (abs_nonneg (a - c)), mul_le_mul_of_nonneg_right h2 (abs_nonneg (b - d)),
      mul_nonneg (abs_nonneg (a - c)) (abs_nonneg (b - d))]
  rw [abs_le]
  constructor
  · have := key c d a b
    rw [abs_sub_comm c a, abs_sub_comm d b] at this
    linarith
  · linarith [key a b c d]

/-- numpy's `radians` is as accurate as assumed. -/
theorem numpy_radians {r : ℝ → ℝ} (hr : Nearest r) (x : ℝ) (hx : |x| ≤ 360) :
    |r (x * r (piD / 180)) - x * Real.pi / 180| ≤ 1 / 2 ^ 49 := by
  have pb := piD_bounds
  have p0 : 3 < piD := by unfold piD; norm_num
  have p1 : piD < 3.2 := by unfold piD; norm_num
  have c1 := hr.err (x := piD / 180) (e := -58) (by norm_num) (by rw [abs_of_pos (by linarith)]; norm_num at p1 ⊢; linarith)
  obtain ⟨a1, a2⟩ := abs_le.1 c1
  norm_num at a1 a2 p1
  have c2 : |x * r (piD / 180)| ≤ 8 := by
    rw [abs_mul]
    have : |r (piD / 180)| ≤ 1 / 50 := abs_le.2 ⟨by linarith, by linarith⟩
    calc _ ≤ 360 * (1 / 50) := mul_le_mul hx this (abs_nonneg _) (by norm_num)
      _ ≤ 8 := by norm_num
  have c3 := hr.err (x := x * r (piD / 180)) (e := -50) (by norm_num) (c2.trans (by norm_num))
  have c4 : |r (piD / 180) - Real.pi / 180| ≤ 1 / 2 ^ 58 := by
    rw [abs_le]; norm_num at pb ⊢; constructor <;> linarith
  have c5 : |x * r (piD / 180) - x * Real.pi / 180| ≤ 360 * (1 / 2 ^ 58) := by
    have : x * r (piD / 180) - x * Real.pi / 180 = x * (r (piD / 180) - Real.pi / 180) := by ring
    rw [this, abs_mul]
    exact mul_le_mul hx c4 (abs_nonneg _) (by norm_num)
  have := abs_sub_le (r (x * r (piD / 180))) (x * r (piD / 180)) (x * Real.pi / 180)
  norm_num at c3 c5 ⊢
  linarith

/-- numpy's `degrees` is as accurate as assumed. -/
theorem numpy_degrees {r : ℝ → ℝ} (hr : Nearest r) (x : ℝ) (hx : |x| ≤ 4) :
    |r (x * r (180 / piD)) - x * 180 / Real.pi| ≤ 1 / 2 ^ 44 := by
  have pb := piD_bounds
  have p0 : 3 < piD := by unfold piD; norm_num
  have p3 := Real.pi_gt_three
  have q1 : 180 / piD ≤ 60 := by rw [div_le_iff₀ (by linarith)]; linarith
  have q0 : 0 < 180 / piD := by positivity
  have c1 := hr.err (x := 180 / piD) (e := -47) (by norm_num) (by rw [abs_of_pos q0]; norm_num; linarith)
  have c4 : |180 / piD - 180 / Real.pi| ≤ 20 / 2 ^ 52 := by
    have : 180 / piD - 180 / Real.pi = 180 * (Real.pi - piD) / (piD * Real.pi) := by field_simp
    rw [this, abs_of_nonneg (div_nonneg (by linarith) (by positivity)), div_le_iff₀ (by positivity)]
    have : 9 ≤ piD * Real.pi := by nlinarith
    norm_num at pb ⊢
    nlinarith
  have c5 : |r (180 / piD) - 180 / Real.pi| ≤ 36 / 2 ^ 52 := by
    have := abs_sub_le (r (180 / piD)) (180 / piD) (180 / Real.pi)
    norm_num at c1 c4 ⊢
    linarith
  obtain ⟨a1, a2⟩ := abs_le.1 c1
  norm_num at a1 a2
  have c6 : |x * r (180 / piD)| ≤ 256 := by
    rw [abs_mul]
    have : |r (180 / piD)| ≤ 64 := abs_le.2 ⟨by linarith, by linarith⟩
    calc _ ≤ 4 * (64 : ℝ) := mul_le_mul hx this (abs_nonneg _) (by norm_num)
      _ = 256 := by norm_num
  have c3 := err256 hr c6
  have c7 : |x * r (180 / piD) - x * 180 / Real.pi| ≤ 4 * (36 / 2 ^ 52) := by
    have : x * r (180 / piD) - x * 180 / Real.pi = x * (r (180 / piD) - 180 / Real.pi) := by ring
    rw [this, abs_mul]
    exact mul_le_mul hx c5 (abs_nonneg _) (by norm_num)
  have := abs_sub_le (r (x * r (180 / piD))) (x * r (180 / piD)) (x * 180 / Real.pi)
  norm_num at c3 c7 ⊢
  linarith

/-- The direction of a position with errors. -/
theorem angle_near {x y X Y a : ℝ} (hx : |x - X| ≤ a) (hy : |y - Y| ≤ a) (ha : 4 * a < √(X ^ 2 + Y ^ 2)) :
    ∃ k : ℤ, |atan2 y x - (atan2 Y X + k * (2 * Real.pi))| ≤ 4 * a / √(X ^ 2 + Y ^ 2) := by
  have cX := atan2_cos X Y
  have sX := atan2_sin X Y
  have cx := atan2_cos x y
  have sx := atan2_sin x y
  have nn := norm_sub_le x y X Y
  have a0 : 0 ≤ a := (abs_nonneg _).trans hx
  generalize atan2 y x = θ at *
  generalize atan2 Y X = Θ at *
  have N0 : 0 < √(X ^ 2 + Y ^ 2) := by linarith
  generalize √(x ^ 2 + y ^ 2) = n at *
  generalize √(X ^ 2 + Y ^ 2) = N at *
  -- the difference of the angles, within half a turn
  obtain ⟨k, hk⟩ : ∃ k : ℤ, |θ - Θ - k * (2 * Real.pi)| ≤ Real.pi := by
    refine ⟨round ((θ - Θ) / (2 * Real.pi)), ?_⟩
    have h := abs_sub_round ((θ - Θ) / (2 * Real.pi))
    have p := Real.pi_pos
    have e : θ - Θ - (round ((θ - Θ) / (2 * Real.pi)) : ℝ) * (2 * Real.pi) =
        ((θ - Θ) / (2 * Real.pi) - round ((θ - Θ) / (2 * Real.pi))) * (2 * Real.pi) := by field_simp
    rw [e, abs_mul, abs_of_pos (by linarith : 0 < 2 * Real.pi)]
    nlinarith
  refine ⟨k, ?_⟩
  rw [← sub_sub]
  have hs : N * |Real.sin (θ - Θ - k * (2 * Real.pi))| ≤ 2 * a := by
    have e : N * Real.sin (θ - Θ - k * (2 * Real.pi)) = (X - x) * Real.sin θ - (Y - y) * Real.cos θ := by
      rw [Real.sin_sub_int_mul_two_pi, Real.sin_sub]
      have e1 : x * Real.sin θ - y * Real.cos θ = 0 := by
        calc x * Real.sin θ - y * Real.cos θ = (n * Real.cos θ) * Real.sin θ - (n * Real.sin θ) * Real.cos θ := by rw [cx, sx]
          _ = 0 := by ring
      have e2 : N * (Real.sin θ * Real.cos Θ - Real.cos θ * Real.sin Θ) = X * Real.sin θ - Y * Real.cos θ := by
        calc _ = (N * Real.cos Θ) * Real.sin θ - (N * Real.sin Θ) * Real.cos θ := by ring
          _ = _ := by rw [cX, sX]
      rw [e2]
      linarith
    have h1 : |N * Real.sin (θ - Θ - k * (2 * Real.pi))| ≤ 2 * a := by
      rw [e]
      refine (abs_sub _ _).trans ?_
      rw [abs_mul, abs_mul]
      have b1 := mul_le_mul (by rw [abs_sub_comm]; exact hx : |X - x| ≤ a) (Real.abs_sin_le_one θ) (abs_nonneg _) a0
      have b2 := mul_le_mul (by rw [abs_sub_comm]; exact hy : |Y - y| ≤ a) (Real.abs_cos_le_one θ) (abs_nonneg _) a0
      linarith
    rwa [abs_mul, abs_of_pos N0] at h1
  have hc : 0 < Real.cos (θ - Θ - k * (2 * Real.pi)) := by
    have e : N * Real.cos (θ - Θ - k * (2 * Real.pi)) = n + ((X - x) * Real.cos θ + (Y - y) * Real.sin θ) := by
      rw [Real.cos_sub_int_mul_two_pi, Real.cos_sub]
      have e1 : x * Real.cos θ + y * Real.sin θ = n := by
        calc x * Real.cos θ + y * Real.sin θ = n * (Real.sin θ ^ 2 + Real.cos θ ^ 2) := by rw [← cx, ← sx]; ring
          _ = n := by rw [Real.sin_sq_add_cos_sq, mul_one]
      have e2 : N * (Real.cos θ * Real.cos Θ + Real.sin θ * Real.sin Θ) = X * Real.cos θ + Y * Real.sin θ := by
        calc _ = (N * Real.cos Θ) * Real.cos θ + (N * Real.sin Θ) * Real.sin θ := by ring
          _ = _ := by rw [cX, sX]
      rw [e2]
      linarith
    have h1 : |(X - x) * Real.cos θ + (Y - y) * Real.sin θ| ≤ 2 * a := by
      refine (abs_add_le _ _).trans ?_
      rw [abs_mul, abs_mul]
      have b1 := mul_le_mul (by rw [abs_sub_comm]; exact hx : |X - x| ≤ a) (Real.abs_cos_le_one θ) (abs_nonneg _) a0
      have b2 := mul_le_mul (by rw [abs_sub_comm]; exact hy : |Y - y| ≤ a) (Real.abs_sin_le_one θ) (abs_nonneg _) a0
      linarith
    have h2 := (abs_le.1 h1).1
    have h3 := (abs_le.1 nn).1
    have h4 : 0 < N * Real.cos (θ - Θ - k * (2 * Real.pi)) := by rw [e]; linarith
    exact (pos_iff_pos_of_mul_pos h4).1 N0
  generalize θ - Θ - k * (2 * Real.pi) = β at *
  have hb : |β| ≤ Real.pi / 2 := by
    by_contra h
    push Not at h
    have := Real.cos_neg_of_pi_div_two_lt_of_lt h (by linarith [Real.pi_pos])
    rw [Real.cos_abs] at this
    linarith
  have hj := Real.mul_abs_le_abs_sin hb
  have hp : 1 / 2 ≤ 2 / Real.pi := by rw [div_le_div_iff₀ (by norm_num) Real.pi_pos]; linarith [Real.pi_lt_four]
  rw [le_div_iff₀ N0]
  have : 1 / 2 * |β| ≤ |Real.sin β| := le_trans (mul_le_mul_of_nonneg_right hp (abs_nonneg β)) hj
  nlinarith

/-- What the proofs use of cosine and sine and their approximations. -/
structure Trig (T T' : ℝ → ℝ) : Prop where
  one : ∀ x, |T x| ≤ 1
  lip : ∀ x y, |T x - T y| ≤ |x - y|
  per : ∀ x (k : ℤ), T (x + k * (2 * Real.pi)) = T x
  err : ∀ x, |x| ≤ 16 → |T' x - T x| ≤ 1 / 2 ^ 52

theorem Lib.Ok.trigCos {r : ℝ → ℝ} {L : Lib} (hL : L.Ok r) : Trig Real.cos L.cos :=
  ⟨Real.abs_cos_le_one, Real.abs_cos_sub_cos_le, Real.cos_add_int_mul_two_pi, hL.cos⟩

theorem Lib.Ok.trigSin {r : ℝ → ℝ} {L : Lib} (hL : L.Ok r) : Trig Real.sin L.sin :=
  ⟨Real.abs_sin_le_one, Real.abs_sin_sub_sin_le, Real.sin_add_int_mul_two_pi, hL.sin⟩

/-- The records for which the bounds hold: centre within 90 degrees of the pole, angle within a turn, reference latitude
and radius not next to nothing. -/
structure Rec.Fair (B : Rec) (f : ℝ) : Prop where
  phi : |B.phiCent| ≤ 360
  cent : |B.rCent| ≤ 90
  ref : 1 / 2 ^ 20 ≤ 90 - |B.blat|
  rad : 1 / 2 ^ 20 ≤ B.r + f
  rad' : B.r + f ≤ 2 ^ 20

section Normal

variable {r : ℝ → ℝ} (hr : Nearest r) {L : Lib} (hL : L.Ok r)

include hr hL

theorem cent_err {T T' : ℝ → ℝ} (hT : Trig T T') {B : Rec} {f : ℝ} (hB : Rec.Fair B f) :
    |r (B.rCent * T' (L.radians B.phiCent)) - B.rCent * T (radians B.phiCent)| ≤ 14 / 2 ^ 46 := by
  have h1 := hL.radians _ hB.phi
  have pi4 := Real.pi_lt_four
  have pi0 := Real.pi_pos
  have h2 : |B.phiCent * Real.pi / 180| ≤ 8 := by
    rw [abs_div, abs_mul, abs_of_pos pi0, abs_of_pos (show (0 : ℝ) < 180 by norm_num), div_le_iff₀ (by norm_num)]
    nlinarith [hB.phi, abs_nonneg B.phiCent]
  have h3 : |L.radians B.phiCent| ≤ 16 := by
    have := abs_sub_abs_le_abs_sub (L.radians B.phiCent) (B.phiCent * Real.pi / 180)
    norm_num at h1
    linarith
  have h4 := hT.err _ h3
  have h5 := hT.lip (L.radians B.phiCent) (radians B.phiCent)
  have h6 : |T' (L.radians B.phiCent) - T (radians B.phiCent)| ≤ 1 / 2 ^ 52 + 1 / 2 ^ 49 := by
    have := abs_sub_le (T' (L.radians B.phiCent)) (T (L.radians B.phiCent)) (T (radians B.phiCent))
    have h7 : |L.radians B.phiCent - radians B.phiCent| ≤ 1 / 2 ^ 49 := h1
    linarith
  have := comp_err hr (ρ := B.rCent) (ρ' := B.rCent) (a := 0) hB.cent (by simp) (by norm_num) (hT.one _) h6 (by norm_num)
  norm_num at this ⊢
  linarith

theorem normal_comp {T T' : ℝ → ℝ} (hT : Trig T T') {B : Rec} {lat mlt th : ℝ} (hB : Rec.Fair B (B.rf mlt))
    (h0 : 0 ≤ B.hem * lat) (h1 : B.hem * lat ≤ 90) (hth : |th| ≤ 16) (k : ℤ)
    (hk : |th - (mlt * Real.pi / 12 + k * (2 * Real.pi))| ≤ 2 ^ (-46 : ℤ)) :
    |normalCompD r L T' B lat mlt th - (colat B.hem lat * T (hourAngle mlt) - B.rCent * T (radians B.phiCent)) *
      ((90 - |B.blat|) / (B.r + B.rf mlt))| ≤ 120 / 2 ^ 46 * ((90 - |B.blat|) / (B.r + B.rf mlt)) := by
  have A0 : (0 : ℝ) < 90 - |B.blat| := lt_of_lt_of_le (by norm_num) hB.ref
  have R0 : (0 : ℝ) < B.r + B.rf mlt := lt_of_lt_of_le (by norm_num) hB.rad
  have c0 : |90 - B.hem * lat| ≤ 90 := abs_le.2 ⟨by linarith, by linarith⟩
  have t1 : |T' th - T (hourAngle mlt)| ≤ 1 / 2 ^ 52 + 1 / 2 ^ 46 := by
    have e1 := hT.err th hth
    have e2 := hT.lip th (mlt * Real.pi / 12 + k * (2 * Real.pi))
    rw [hT.per] at e2
    have := abs_sub_le (T' th) (T th) (T (hourAngle mlt))
    have e3 : |T th - T (hourAngle mlt)| ≤ |th - (mlt * Real.pi / 12 + k * (2 * Real.pi))| := e2
    have e4 : (2 : ℝ) ^ (-46 : ℤ) = 1 / 2 ^ 46 := by norm_num
    rw [e4] at hk
    linarith
  have p1 := comp_err hr (ρ := 90 - B.hem * lat) (ρ' := r (90 - B.hem * lat)) c0 (err128 hr (by linarith)) (by norm_num)
    (hT.one (hourAngle mlt)) t1 (by norm_num)
  have p2 := cent_err hr hL hT hB
  have d0 : |(90 - B.hem * lat) * T (hourAngle mlt)| ≤ 90 := by
    rw [abs_mul]
    calc _ ≤ 90 * 1 := mul_le_mul c0 (hT.one _) (abs_nonneg _) (by norm_num)
      _ = 90 := by norm_num
  have d1 : |B.rCent * T (radians B.phiCent)| ≤ 90 := by
    rw [abs_mul]
    calc _ ≤ 90 * 1 := mul_le_mul hB.cent (hT.one _) (abs_nonneg _) (by norm_num)
      _ = 90 := by norm_num
  have hA' := hr.rel (x := 90 - |B.blat|) ((two_le (show (-1022 : ℤ) ≤ -20 by norm_num)).trans (by
    rw [abs_of_pos A0]; have := hB.ref; norm_num at this ⊢; exact this))
  have hR' := hr.rel (x := B.r + B.rf mlt) ((two_le (show (-1022 : ℤ) ≤ -20 by norm_num)).trans (by
    rw [abs_of_pos R0]; have := hB.rad; norm_num at this ⊢; exact this))
  rw [abs_of_pos A0] at hA'
  rw [abs_of_pos R0] at hR'
  have hs := scale_err hr hB.ref hA' hB.rad hB.rad' hR'
  have S1 : (1 / 2 ^ 40 : ℝ) ≤ (90 - |B.blat|) / (B.r + B.rf mlt) := by
    rw [le_div_iff₀ R0]
    calc (1 / 2 ^ 40 : ℝ) * (B.r + B.rf mlt) ≤ 1 / 2 ^ 40 * 2 ^ 20 := mul_le_mul_of_nonneg_left hB.rad' (by norm_num)
      _ = 1 / 2 ^ 20 := by norm_num
      _ ≤ _ := hB.ref
  have S0 : 0 < (90 - |B.blat|) / (B.r + B.rf mlt) := div_pos A0 R0
  unfold normalCompD colat
  generalize r (r (90 - B.hem * lat) * T' th) = xp at *
  generalize r (B.rCent * T' (L.radians B.phiCent)) = xc at *
  generalize r (r (90 - |B.blat|) / r (B.r + B.rf mlt)) = s at *
  generalize (90 - |B.blat|) / (B.r + B.rf mlt) = S at *
  generalize (90 - B.hem * lat) * T (hourAngle mlt) = X at *
  generalize B.rCent * T (radians B.phiCent) = C at *
  obtain ⟨d0a, d0b⟩ := abs_le.1 d0
  obtain ⟨d1a, d1b⟩ := abs_le.1 d1
  obtain ⟨p1a, p1b⟩ := abs_le.1 p1
  obtain ⟨p2a, p2b⟩ := abs_le.1 p2
  norm_num at p1a p1b p2a p2b
  have e1 := err256 hr (x := xp - xc) (abs_le.2 ⟨by linarith, by linarith⟩)
  obtain ⟨e1a, e1b⟩ := abs_le.1 e1
  have e2 : |r (xp - xc) - (X - C)| ≤ 111 / 2 ^ 46 := by
    rw [abs_le]
    norm_num at e1a e1b ⊢
    constructor <;> linarith
  refine (scaled_err hr S1 hs (abs_le.2 ⟨by linarith, by linarith⟩) e2 (by norm_num)).trans ?_
  exact mul_le_mul_of_nonneg_right (by norm_num) S0.le

/-- The rounded latitude of a position in the plane with errors. -/
theorem lat_err {x y X Y a : ℝ} (hx : |x - X| ≤ a) (hy : |y - Y| ≤ a) :
    |r (90 - L.sqrt (r (r (x ^ 2) + r (y ^ 2)))) - (90 - √(X ^ 2 + Y ^ 2))| ≤
      (2 + 1 / 2 ^ 40) * a + 7 / 2 ^ 53 * √(X ^ 2 + Y ^ 2) + 1 / 2 ^ 46 := by
  have n1 := norm_err hr hL x y
  have n2 := norm_sub_le x y X Y
  have M0 : 0 ≤ √(X ^ 2 + Y ^ 2) := Real.sqrt_nonneg _
  have a0 : 0 ≤ a := (abs_nonneg _).trans hx
  generalize L.sqrt (r (r (x ^ 2) + r (y ^ 2))) = d at *
  generalize √(x ^ 2 + y ^ 2) = N at *
  generalize √(X ^ 2 + Y ^ 2) = M at *
  have n4 := hr.relAbs (90 - d)
  have η1 : (2 : ℝ) ^ (-1075 : ℤ) ≤ 1 / 2 ^ 60 := (two_le (show (-1075 : ℤ) ≤ -60 by norm_num)).trans (by norm_num)
  generalize (2 : ℝ) ^ (-1075 : ℤ) = η at *
  have ε0 : (2 : ℝ) ^ (-53 : ℤ) = 1 / 2 ^ 53 := by norm_num
  rw [ε0] at n4
  have n5 : |N - M| ≤ 2 * a := by linarith
  obtain ⟨b1, b2⟩ := abs_le.1 n5
  have n6 : |d - M| ≤ (2 + 1 / 2 ^ 45) * a + 5 / 2 ^ 53 * M + 1 / 2 ^ 100 := by
    have := abs_sub_le d N M
    norm_num at n1 ⊢
    linarith
  obtain ⟨c1, c2⟩ := abs_le.1 n6
  have n7 : |90 - d| ≤ 90 + M + ((2 + 1 / 2 ^ 45) * a + 5 / 2 ^ 53 * M + 1 / 2 ^ 100) := abs_le.2 ⟨by linarith, by linarith⟩
  have n8 := abs_sub_le (r (90 - d)) (90 - d) (90 - M)
  have n9 : |90 - d - (90 - M)| = |d - M| := by rw [← abs_neg]; congr 1; ring
  rw [n9] at n8
  norm_num at n4 n6 n7 η1 ⊢
  linarith

omit hL in
/-- The angle of `revert_coord`. -/
theorem rev_angle {omlt : ℝ} (hm : |omlt| ≤ 48) :
    |r (r (omlt * piD) / 12)| ≤ 16 ∧ |r (r (omlt * piD) / 12) - hourAngle omlt| ≤ 1 / 2 ^ 46 := by
  obtain ⟨h1, h2⟩ := rad_arg hr hm
  refine ⟨by linarith, ?_⟩
  have pb := piD_bounds
  have h3 : |omlt * piD / 12 - hourAngle omlt| ≤ 4 * (1 / 2 ^ 52) := by
    have : omlt * piD / 12 - hourAngle omlt = -(omlt / 12 * (Real.pi - piD)) := by unfold hourAngle; ring
    rw [this, abs_neg, abs_mul, abs_div, abs_of_pos (show (0 : ℝ) < 12 by norm_num), abs_of_nonneg (by linarith : 0 ≤ Real.pi - piD)]
    exact mul_le_mul (by linarith) (by linarith) (by linarith) (by norm_num)
  have := abs_sub_le (r (r (omlt * piD) / 12)) (omlt * piD / 12) (hourAngle omlt)
  norm_num at h2 h3 ⊢
  linarith

theorem revert_comp {T T' : ℝ → ℝ} (hT : Trig T T') {B : Rec} (hv : B.Valid) {olat omlt c : ℝ} (hB : Rec.Fair B c)
    (h0 : 0 ≤ B.hem * olat) (h1 : B.hem * olat ≤ 90) (hm : |omlt| ≤ 48) :
    |revertCompD r L T' B olat omlt c - (colat B.hem olat * T (hourAngle omlt) * ((B.r + c) / colat B.hem B.blat) +
      B.rCent * T (radians B.phiCent))| ≤ (104 * ((B.r + c) / colat B.hem B.blat) + 15) / 2 ^ 46 := by
  have A0 : (0 : ℝ) < 90 - |B.blat| := lt_of_lt_of_le (by norm_num) hB.ref
  have R0 : (0 : ℝ) < B.r + c := lt_of_lt_of_le (by norm_num) hB.rad
  have c0 : |90 - B.hem * olat| ≤ 90 := abs_le.2 ⟨by linarith, by linarith⟩
  obtain ⟨a1, a2⟩ := rev_angle hr hm
  have t1 : |T' (r (r (omlt * piD) / 12)) - T (hourAngle omlt)| ≤ 1 / 2 ^ 52 + 1 / 2 ^ 46 := by
    have e1 := hT.err _ a1
    have e2 := hT.lip (r (r (omlt * piD) / 12)) (hourAngle omlt)
    have := abs_sub_le (T' (r (r (omlt * piD) / 12))) (T (r (r (omlt * piD) / 12))) (T (hourAngle omlt))
    linarith
  have p1 := comp_err hr (ρ := 90 - B.hem * olat) (ρ' := r (90 - B.hem * olat)) c0 (err128 hr (by linarith)) (by norm_num)
    (hT.one (hourAngle omlt)) t1 (by norm_num)
  have p2 := cent_err hr hL hT hB
  have d0 : |(90 - B.hem * olat) * T (hourAngle omlt)| ≤ 90 := by
    rw [abs_mul]
    calc _ ≤ 90 * 1 := mul_le_mul c0 (hT.one _) (abs_nonneg _) (by norm_num)
      _ = 90 := by norm_num
  have d1 : |B.rCent * T (radians B.phiCent)| ≤ 90 := by
    rw [abs_mul]
    calc _ ≤ 90 * 1 := mul_le_mul hB.cent (hT.one _) (abs_nonneg _) (by norm_num)
      _ = 90 := by norm_num
  have hA' := hr.rel (x := 90 - |B.blat|) ((two_le (show (-1022 : ℤ) ≤ -20 by norm_num)).trans (by
    rw [abs_of_pos A0]; have := hB.ref; norm_num at this ⊢; exact this))
  have hR' := hr.rel (x := B.r + c) ((two_le (show (-1022 : ℤ) ≤ -20 by norm_num)).trans (by
    rw [abs_of_pos R0]; have := hB.rad; norm_num at this ⊢; exact this))
  rw [abs_of_pos A0] at hA'
  rw [abs_of_pos R0] at hR'
  have A1 : 90 - |B.blat| ≤ 2 ^ 20 := by have := abs_nonneg B.blat; norm_num; linarith
  have hs := scale_err hr hB.rad hR' hB.ref A1 hA'
  have S1 : (1 / 2 ^ 40 : ℝ) ≤ (B.r + c) / (90 - |B.blat|) := by
    rw [le_div_iff₀ A0]
    calc (1 / 2 ^ 40 : ℝ) * (90 - |B.blat|) ≤ 1 / 2 ^ 40 * 2 ^ 20 := mul_le_mul_of_nonneg_left A1 (by norm_num)
      _ = 1 / 2 ^ 20 := by norm_num
      _ ≤ _ := hB.rad
  have S0 : 0 < (B.r + c) / (90 - |B.blat|) := div_pos R0 A0
  have eb : B.hem * B.blat = |B.blat| := hv.hem_blat
  unfold revertCompD colat
  rw [eb]
  generalize r (r (90 - B.hem * olat) * T' (r (r (omlt * piD) / 12))) = xp at *
  generalize r (B.rCent * T' (L.radians B.phiCent)) = xc at *
  generalize r (r (B.r + c) / r (90 - |B.blat|)) = s at *
  generalize (B.r + c) / (90 - |B.blat|) = S at *
  generalize (90 - B.hem * olat) * T (hourAngle omlt) = X at *
  generalize B.rCent * T (radians B.phiCent) = C at *
  have q1 := scaled_err hr S1 hs (d0.trans (by norm_num)) p1 (by norm_num)
  have q1' : |r (xp * s) - X * S| ≤ 103 / 2 ^ 46 * S := q1.trans (mul_le_mul_of_nonneg_right (by norm_num) S0.le)
  have XS : |X * S| ≤ 90 * S := by rw [abs_mul, abs_of_pos S0]; exact mul_le_mul_of_nonneg_right d0 S0.le
  have q2 := hr.relAbs (r (xp * s) + xc)
  have η1 : (2 : ℝ) ^ (-1075 : ℤ) ≤ 1 / 2 ^ 60 := (two_le (show (-1075 : ℤ) ≤ -60 by norm_num)).trans (by norm_num)
  rw [show (2 : ℝ) ^ (-53 : ℤ) = 1 / 2 ^ 53 by norm_num] at q2
  generalize (2 : ℝ) ^ (-1075 : ℤ) = η at *
  have q3 : |r (xp * s) + xc - (X * S + C)| ≤ 103 / 2 ^ 46 * S + 14 / 2 ^ 46 := by
    have : r (xp * s) + xc - (X * S + C) = (r (xp * s) - X * S) + (xc - C) := by ring
    rw [this]
    exact (abs_add_le _ _).trans (add_le_add q1' p2)
  have q4 : |r (xp * s) + xc| ≤ 91 * S + 91 := by
    have e1 := abs_sub_abs_le_abs_sub (r (xp * s) + xc) (X * S + C)
    have e2 := abs_add_le (X * S) C
    norm_num at q3
    linarith
  have q5 := abs_sub_le (r (r (xp * s) + xc)) (r (xp * s) + xc) (X * S + C)
  generalize |r (xp * s) + xc| = p at *
  generalize |r (xp * s) + xc - (X * S + C)| = p' at *
  have q6 : (1 / 2 ^ 53 : ℝ) * p ≤ 1 / 2 ^ 53 * (91 * S + 91) := mul_le_mul_of_nonneg_left q4 (by norm_num)
  norm_num at q2 q3 q6 η1 ⊢
  linarith

/-- `arctan2` in hours: there is one result, in the half-open range, and its angle is within `2 ^ -48` of the angle of the
position, up to whole turns. -/
theorem xyHours_err (x y : ℝ) : ∃ h, (∀ o, XyHoursD r L x y o ↔ o = h) ∧ 0 ≤ h ∧ h < 24 ∧
    ((x ≠ 0 ∨ y ≠ 0) → ∃ k : ℤ, |hourAngle h - (atan2 y x + k * (2 * Real.pi))| ≤ 1 / 2 ^ 48) := by
  have a4 := hL.atan2_le x y
  have hd := hL.degrees _ a4
  have p3 := Real.pi_gt_three
  have p4 := Real.pi_lt_four
  generalize hα : L.atan2 y x = α at *
  generalize hδ : L.degrees α = δ at *
  have b1 : |α * 180 / Real.pi| ≤ 239 := by
    rw [abs_div, abs_mul, abs_of_pos Real.pi_pos, abs_of_pos (show (0 : ℝ) < 180 by norm_num), div_le_iff₀ Real.pi_pos]
    have := Real.pi_gt_d2
    norm_num at this
    nlinarith [abs_nonneg α]
  have b2 : |δ| ≤ 240 := by
    have := abs_sub_abs_le_abs_sub δ (α * 180 / Real.pi)
    norm_num at hd
    linarith
  have b3 : |δ / 15| ≤ 16 := by
    rw [abs_div, abs_of_pos (show (0 : ℝ) < 15 by norm_num)]; linarith
  have e1 := hr.err (x := δ / 15) (e := -49) (by norm_num) (b3.trans (by norm_num))
  have d16 : IsDouble 16 := by exact_mod_cast isDouble_nat (n := 16) (by norm_num)
  have v16 : |r (δ / 15)| ≤ 16 := abs_le.2 ⟨hr.dbl_le d16.neg (abs_le.1 b3).1, hr.le_dbl d16 (abs_le.1 b3).2⟩
  have dv := hr.mem (δ / 15)
  generalize hv : r (δ / 15) = v at *
  obtain ⟨w, f1, f2, f3, n, fn⟩ := Ocb.Time.C01_fix_range_in_interval v 0 24 none (by norm_num) (by norm_num) (by norm_num)
  have s1 : ∀ o, Deg2hr r δ o ↔ o = .ok (r w) := by
    intro o
    unfold Deg2hr
    rw [hv, fix_hours hr dv (v16.trans (by norm_num)), f1]
    rfl
  have m0 : 0 ≤ r w := hr.nonneg f2
  have m1 : r w ≤ 24 := hr.le_dbl d24 f3.le
  obtain ⟨h, g1, g2, g3, n', gn⟩ := Ocb.Time.C01_fix_range_in_interval (r w) 0 24 none (by norm_num) (by norm_num) (by norm_num)
  have s2 : ∀ o, FixRange r (r w) 0 24 none o ↔ o = .ok h := by
    intro o
    rw [fix_hours_nonneg hr (hr.mem w) ((abs_le.2 ⟨by linarith, by linarith⟩ : |r w| ≤ 24).trans (by norm_num)) m0, g1]
  refine ⟨h, fun o => ?_, g2, g3, fun hne => ?_⟩
  · unfold XyHoursD
    rw [hα, hδ]
    constructor
    · rintro ⟨m, hm, ho⟩
      have := (s1 _).1 hm
      injection this with this
      rw [this] at ho
      have := (s2 _).1 ho
      injection this
    · rintro rfl
      exact ⟨r w, (s1 _).2 rfl, (s2 _).2 rfl⟩
  · obtain ⟨k, hk⟩ := hL.atan2 x y hne
    rw [hα] at hk
    have e2 := hr.err (x := w) (e := -48) (by norm_num) (by rw [abs_of_nonneg f2]; norm_num; linarith)
    refine ⟨k + n + n', ?_⟩
    have key : hourAngle h - (atan2 y x + ((k + n + n' : ℤ) : ℝ) * (2 * Real.pi)) =
        (α - (atan2 y x + k * (2 * Real.pi))) +
          Real.pi / 12 * ((δ - α * 180 / Real.pi) / 15 + (v - δ / 15) + (r w - w)) := by
      have hw : w = v + n * 24 := by rw [fn]; simp
      have hh : h = r w + n' * 24 := by rw [gn]; simp
      unfold hourAngle
      rw [hh]
      push_cast
      have : Real.pi ≠ 0 := Real.pi_ne_zero
      field_simp
      rw [hw]
      ring
    rw [key]
    refine (abs_add_le _ _).trans ?_
    have e3 : |(δ - α * 180 / Real.pi) / 15 + (v - δ / 15) + (r w - w)| ≤ 1 / 2 ^ 44 / 15 + 1 / 2 ^ 50 + 1 / 2 ^ 49 := by
      refine (abs_add_le _ _).trans (add_le_add ((abs_add_le _ _).trans (add_le_add ?_ ?_)) ?_)
      · rw [abs_div, abs_of_pos (show (0 : ℝ) < 15 by norm_num)]
        exact div_le_div_of_nonneg_right hd (by norm_num)
      · norm_num at e1 ⊢; exact e1
      · norm_num at e2 ⊢; exact e2
    have e4 : |Real.pi / 12 * ((δ - α * 180 / Real.pi) / 15 + (v - δ / 15) + (r w - w))| ≤
        1 / 3 * (1 / 2 ^ 44 / 15 + 1 / 2 ^ 50 + 1 / 2 ^ 49) := by
      rw [abs_mul, abs_of_pos (by positivity : 0 < Real.pi / 12)]
      exact mul_le_mul (by linarith) e3 (abs_nonneg _) (by norm_num)
    norm_num at hk e4 ⊢
    linarith


/-- The hours of a position with errors: `N` is the exact distance from the pole. -/
theorem hours_err {x y X Y a : ℝ} (hx : |x - X| ≤ a) (hy : |y - Y| ≤ a) (ha : 4 * a < √(X ^ 2 + Y ^ 2)) :
    ∃ h, (∀ o, XyHoursD r L x y o ↔ o = h) ∧ 0 ≤ h ∧ h < 24 ∧
      ∃ k : ℤ, |h - (hoursOf X Y + 24 * k)| ≤ 16 * a / √(X ^ 2 + Y ^ 2) + 1 / 2 ^ 46 := by
  obtain ⟨h, h1, h2, h3, h4⟩ := xyHours_err hr hL x y
  refine ⟨h, h1, h2, h3, ?_⟩
  have hne : x ≠ 0 ∨ y ≠ 0 := by
    by_contra hc
    push Not at hc
    obtain ⟨rfl, rfl⟩ := hc
    have := norm_sub_le 0 0 X Y
    simp only [ne_eq, OfNat.ofNat_ne_zero, not_false_eq_true, zero_pow, add_zero, Real.sqrt_zero, zero_sub, abs_neg] at this hx hy
    rw [abs_of_nonneg (Real.sqrt_nonneg _)] at this
    linarith [abs_nonneg X]
  obtain ⟨k, hk⟩ := h4 hne
  obtain ⟨k', hk'⟩ := angle_near hx hy ha
  obtain ⟨k'', hk''⟩ := hourAngle_hoursOf X Y
  refine ⟨k + k' - k'', ?_⟩
  have N0 : 0 < √(X ^ 2 + Y ^ 2) := lt_of_le_of_lt (by linarith [(abs_nonneg _).trans hx]) ha
  have e : h - (hoursOf X Y + 24 * ((k + k' - k'' : ℤ) : ℝ)) =
      12 / Real.pi * ((hourAngle h - (atan2 y x + k * (2 * Real.pi))) + (atan2 y x - (atan2 Y X + k' * (2 * Real.pi)))) := by
    have : hourAngle h - hourAngle (hoursOf X Y) = Real.pi / 12 * (h - hoursOf X Y) := by unfold hourAngle; ring
    rw [hk''] at this
    have hp := Real.pi_ne_zero
    push_cast
    field_simp
    field_simp at this
    linarith
  rw [e, abs_mul, abs_of_pos (by positivity : 0 < 12 / Real.pi)]
  have p4 : 12 / Real.pi ≤ 4 := by rw [div_le_iff₀ Real.pi_pos]; linarith [Real.pi_gt_three]
  calc _ ≤ 4 * (1 / 2 ^ 48 + 4 * a / √(X ^ 2 + Y ^ 2)) :=
        mul_le_mul p4 ((abs_add_le _ _).trans (add_le_add hk hk')) (abs_nonneg _) (by norm_num)
    _ = _ := by ring

/-! ### C186 -/

/-- Uniqueness of the outcome of `normal_coord`, and the errors of its position in the plane. -/
theorem normal_xy {B : Rec} {lat mlt : ℝ} (hB : Rec.Fair B (B.rf mlt)) (h0 : 0 ≤ B.hem * lat) (h1 : B.hem * lat ≤ 90)
    (hm : |mlt| ≤ 48) : ∃ x y, (∀ a b, NormalD r L B lat mlt a b ↔ a = latOfD r L B.hem x y ∧ XyHoursD r L x y b) ∧
      |x - nX B lat mlt| ≤ 120 / 2 ^ 46 * ((90 - |B.blat|) / (B.r + B.rf mlt)) ∧
      |y - nY B lat mlt| ≤ 120 / 2 ^ 46 * ((90 - |B.blat|) / (B.r + B.rf mlt)) := by
  obtain ⟨th, t1, ta, tb, -, k, t3⟩ := C153_full hr hm
  have t2 : |th| ≤ 16 := by
    rw [abs_of_nonneg ta]
    linarith [piD_bounds.1, piD_bounds.2, Real.pi_lt_four]
  have hx := normal_comp hr hL hL.trigCos hB h0 h1 t2 k t3
  have hy := normal_comp hr hL hL.trigSin hB h0 h1 t2 k t3
  refine ⟨normalCompD r L L.cos B lat mlt th, normalCompD r L L.sin B lat mlt th, fun a b => ?_, hx, hy⟩
  constructor
  · rintro ⟨th', u1, u2, u3⟩
    have := (t1 _).1 u1
    injection this with this
    subst this
    exact ⟨u2, u3⟩
  · rintro ⟨u2, u3⟩
    exact ⟨th, (t1 _).2 rfl, u2, u3⟩

omit hr hL in
theorem dist_le {B : Rec} {lat mlt : ℝ} (hB : Rec.Fair B (B.rf mlt)) (h0 : 0 ≤ B.hem * lat) (h1 : B.hem * lat ≤ 90) :
    distCentre B lat mlt ≤ 180 := by
  unfold distCentre
  rw [Real.sqrt_le_iff]
  refine ⟨by norm_num, ?_⟩
  unfold polarDist2 colat
  have c := abs_le.1 (Real.abs_cos_le_one (hourAngle mlt - B.phiCent * Real.pi / 180))
  have d := abs_le.1 hB.cent
  generalize Real.cos (hourAngle mlt - B.phiCent * Real.pi / 180) = q at *
  generalize B.rCent = s at *
  generalize B.hem * lat = l at *
  have e1 : |(90 - l) * s| ≤ 90 * 90 := by
    rw [abs_mul]; exact mul_le_mul (abs_le.2 ⟨by linarith, by linarith⟩) (abs_le.2 d) (abs_nonneg _) (by norm_num)
  have e2 : |(90 - l) * s * q| ≤ 90 * 90 := by
    rw [abs_mul]
    calc _ ≤ 90 * 90 * 1 := mul_le_mul e1 (abs_le.2 c) (abs_nonneg _) (by norm_num)
      _ = _ := by norm_num
  have e3 := (abs_le.1 e2).1
  nlinarith [d.1, d.2]

/-- C186: `normal_coord` in double precision has one outcome, its local time is in the half-open range, its latitude is
within `(260 S + 1) / 2 ^ 46` degrees of the exact one (`S` the scaling from magnetic to OCB degrees), and its local time is
within `(1920 / d + 1) / 2 ^ 46` hours of the exact one, up to whole days (`d` the distance from the centre in degrees). -/
theorem C186_normal_coord {B : Rec} (hv : B.Valid) {lat mlt : ℝ} (hB : Rec.Fair B (B.rf mlt)) (h0 : 0 ≤ B.hem * lat)
    (h1 : B.hem * lat ≤ 90) (hm : |mlt| ≤ 48) :
    ∃ olat omlt lat' mlt', (∀ a b, NormalD r L B lat mlt a b ↔ a = olat ∧ b = omlt) ∧
      normalPt B lat mlt = .ok (lat', mlt', B.rf mlt) ∧ 0 ≤ omlt ∧ omlt < 24 ∧
      |olat - lat'| ≤ (260 * ((90 - |B.blat|) / (B.r + B.rf mlt)) + 1) / 2 ^ 46 ∧
      (480 / 2 ^ 46 < distCentre B lat mlt → ∃ k : ℤ, |omlt - (mlt' + 24 * k)| ≤ (1920 / distCentre B lat mlt + 1) / 2 ^ 46) := by
  obtain ⟨x, y, u, hx, hy⟩ := normal_xy hr hL hB h0 h1 hm
  have A0 : (0 : ℝ) < 90 - |B.blat| := lt_of_lt_of_le (by norm_num) hB.ref
  have R0 : (0 : ℝ) < B.r + B.rf mlt := lt_of_lt_of_le (by norm_num) hB.rad
  have S0 : 0 < (90 - |B.blat|) / (B.r + B.rf mlt) := div_pos A0 R0
  have nn : √(nX B lat mlt ^ 2 + nY B lat mlt ^ 2) = distCentre B lat mlt * ((90 - |B.blat|) / (B.r + B.rf mlt)) := by
    rw [norm_n, Rec.rad, abs_of_pos S0]
  have dl := dist_le hB h0 h1
  have d0 : 0 ≤ distCentre B lat mlt := Real.sqrt_nonneg _
  obtain ⟨h, hu, h2, h3, -⟩ := xyHours_err hr hL x y
  have hl := lat_err hr hL hx hy
  refine ⟨_, h, _, _, fun a b => by rw [u, hu], normalPt_ok B lat mlt, h2, h3, ?_, fun hd => ?_⟩
  · have e : latOfD r L B.hem x y - B.hem * (90 - √(nX B lat mlt ^ 2 + nY B lat mlt ^ 2)) =
        B.hem * (r (90 - L.sqrt (r (r (x ^ 2) + r (y ^ 2)))) - (90 - √(nX B lat mlt ^ 2 + nY B lat mlt ^ 2))) := by
      unfold latOfD; ring
    have a1 : |B.hem| = 1 := by rcases hv.hem with h | h <;> rw [h] <;> norm_num
    rw [e, abs_mul, a1, one_mul]
    refine hl.trans ?_
    rw [nn]
    generalize (90 - |B.blat|) / (B.r + B.rf mlt) = S at *
    have := mul_le_mul_of_nonneg_right dl S0.le
    norm_num
    linarith
  · have ha : 4 * (120 / 2 ^ 46 * ((90 - |B.blat|) / (B.r + B.rf mlt))) < √(nX B lat mlt ^ 2 + nY B lat mlt ^ 2) := by
      rw [nn]
      calc _ = 480 / 2 ^ 46 * ((90 - |B.blat|) / (B.r + B.rf mlt)) := by ring
        _ < _ := mul_lt_mul_of_pos_right hd S0
    obtain ⟨h', hu', -, -, k, hk⟩ := hours_err hr hL hx hy ha
    have : h = h' := (hu' h).1 ((hu h).2 rfl)
    rw [← this] at hk
    refine ⟨k, hk.trans (le_of_eq ?_)⟩
    rw [nn]
    have d1 : 0 < distCentre B lat mlt := lt_trans (by norm_num) hd
    generalize (90 - |B.blat|) / (B.r + B.rf mlt) = S at *
    field_simp
    ring

/-! ### C187 -/

/-- C187: `revert_coord` in double precision has one outcome, its local time is in the half-open range, its latitude is
within `(220 S + 42) / 2 ^ 46` degrees of the exact one (`S` the scaling from OCB to magnetic degrees), and its local time is
within `(16 (104 S + 15) / N + 1) / 2 ^ 46` hours of the exact one, up to whole days (`N` the exact magnetic colatitude). -/
theorem C187_revert_coord {B : Rec} (hv : B.Valid) {olat omlt c : ℝ} (hB : Rec.Fair B c) (h0 : 0 ≤ B.hem * olat)
    (h1 : B.hem * olat ≤ 90) (hm : |omlt| ≤ 48) :
    ∃ lat mlt lat' mlt', (∀ a b, RevertD r L B olat omlt c a b ↔ a = lat ∧ b = mlt) ∧
      revertPt B olat omlt c = .ok (lat', mlt') ∧ 0 ≤ mlt ∧ mlt < 24 ∧
      |lat - lat'| ≤ (220 * ((B.r + c) / colat B.hem B.blat) + 42) / 2 ^ 46 ∧
      (4 * (104 * ((B.r + c) / colat B.hem B.blat) + 15) / 2 ^ 46 < colat B.hem lat' →
        ∃ k : ℤ, |mlt - (mlt' + 24 * k)| ≤
          (16 * (104 * ((B.r + c) / colat B.hem B.blat) + 15) / colat B.hem lat' + 1) / 2 ^ 46) := by
  have hx := revert_comp hr hL hL.trigCos hv hB h0 h1 hm
  have hy := revert_comp hr hL hL.trigSin hv hB h0 h1 hm
  have A0 : (0 : ℝ) < colat B.hem B.blat := by
    unfold colat; rw [hv.hem_blat]; exact lt_of_lt_of_le (by norm_num) hB.ref
  have R0 : (0 : ℝ) < B.r + c := lt_of_lt_of_le (by norm_num) hB.rad
  have S0 : 0 < (B.r + c) / colat B.hem B.blat := div_pos R0 A0
  have a1 : |B.hem| = 1 := by rcases hv.hem with h | h <;> rw [h] <;> norm_num
  have c0 : |colat B.hem olat| ≤ 90 := by unfold colat; exact abs_le.2 ⟨by linarith, by linarith⟩
  obtain ⟨h, hu, h2, h3, -⟩ := xyHours_err hr hL (revertCompD r L L.cos B olat omlt c) (revertCompD r L L.sin B olat omlt c)
  have hl := lat_err hr hL hx hy
  have hh := fun ha => hours_err hr hL hx hy ha
  refine ⟨_, h, _, _, fun a b => by unfold RevertD; rw [hu], revertPt_ok B olat omlt c, h2, h3, ?_, ?_⟩
  · have e : ∀ M : ℝ, latOfD r L B.hem (revertCompD r L L.cos B olat omlt c) (revertCompD r L L.sin B olat omlt c) - B.hem * (90 - M) =
        B.hem * (r (90 - L.sqrt (r (r (revertCompD r L L.cos B olat omlt c ^ 2) + r (revertCompD r L L.sin B olat omlt c ^ 2)))) - (90 - M)) := by
      intro M; unfold latOfD; ring
    rw [e, abs_mul, a1, one_mul]
    refine hl.trans ?_
    have nb : √((colat B.hem olat * Real.cos (hourAngle omlt) * ((B.r + c) / colat B.hem B.blat) + B.rCent * Real.cos (radians B.phiCent)) ^ 2 +
        (colat B.hem olat * Real.sin (hourAngle omlt) * ((B.r + c) / colat B.hem B.blat) + B.rCent * Real.sin (radians B.phiCent)) ^ 2) ≤
        2 * (90 * ((B.r + c) / colat B.hem B.blat) + 90) := by
      have b1 : ∀ u v : ℝ, |u| ≤ 1 → |v| ≤ 1 → |colat B.hem olat * u * ((B.r + c) / colat B.hem B.blat) + B.rCent * v| ≤
          90 * ((B.r + c) / colat B.hem B.blat) + 90 := by
        intro u v hu hv
        refine (abs_add_le _ _).trans (add_le_add ?_ ?_)
        · rw [abs_mul, abs_mul, abs_of_pos S0]
          refine mul_le_mul_of_nonneg_right ?_ S0.le
          calc _ ≤ 90 * 1 := mul_le_mul c0 hu (abs_nonneg _) (by norm_num)
            _ = 90 := by norm_num
        · rw [abs_mul]
          calc _ ≤ 90 * 1 := mul_le_mul hB.cent hv (abs_nonneg _) (by norm_num)
            _ = 90 := by norm_num
      have b2 := b1 _ _ (Real.abs_cos_le_one (hourAngle omlt)) (Real.abs_cos_le_one (radians B.phiCent))
      have b3 := b1 _ _ (Real.abs_sin_le_one (hourAngle omlt)) (Real.abs_sin_le_one (radians B.phiCent))
      rw [Real.sqrt_le_iff]
      refine ⟨by positivity, ?_⟩
      have b4 := sq_le_sq' (abs_le.1 b2).1 (abs_le.1 b2).2
      have b5 := sq_le_sq' (abs_le.1 b3).1 (abs_le.1 b3).2
      nlinarith
    generalize √((colat B.hem olat * Real.cos (hourAngle omlt) * ((B.r + c) / colat B.hem B.blat) + B.rCent * Real.cos (radians B.phiCent)) ^ 2 +
        (colat B.hem olat * Real.sin (hourAngle omlt) * ((B.r + c) / colat B.hem B.blat) + B.rCent * Real.sin (radians B.phiCent)) ^ 2) = M at *
    generalize (B.r + c) / colat B.hem B.blat = S at *
    norm_num
    linarith
  · rw [colat_hem hv]
    intro hd
    obtain ⟨h', hu', -, -, k, hk⟩ := hh (lt_of_eq_of_lt (by ring) hd)
    have : h = h' := (hu' h).1 ((hu h).2 rfl)
    rw [← this] at hk
    refine ⟨k, hk.trans (le_of_eq ?_)⟩
    unfold Rec.xc Rec.yc
    ring

/-! ### C188 -/

/-- The position `revert_coord` reads out of the latitude and local time `normal_coord` gave is near the position
`normal_coord` computed. -/
theorem reread {hem x y h : ℝ} (hh : hem ^ 2 = 1) (hu : XyHoursD r L x y h) (h0 : 0 ≤ hem * latOfD r L hem x y) :
    hem * latOfD r L hem x y ≤ 90 ∧ 0 ≤ h ∧ h < 24 ∧
    |colat hem (latOfD r L hem x y) * Real.cos (hourAngle h) - x| ≤ 27 / 2 ^ 46 ∧
    |colat hem (latOfD r L hem x y) * Real.sin (hourAngle h) - y| ≤ 27 / 2 ^ 46 := by
  obtain ⟨h', u, b0, b1, hk⟩ := xyHours_err hr hL x y
  have : h = h' := (u h).1 hu
  subst this
  have n1 := norm_err hr hL x y
  have s0 : 0 ≤ L.sqrt (r (r (x ^ 2) + r (y ^ 2))) := by
    rw [hL.sqrt _ (hr.nonneg (add_nonneg (hr.nonneg (sq_nonneg x)) (hr.nonneg (sq_nonneg y))))]
    exact hr.nonneg (Real.sqrt_nonneg _)
  have el : hem * latOfD r L hem x y = r (90 - L.sqrt (r (r (x ^ 2) + r (y ^ 2)))) := by
    unfold latOfD; rw [← mul_assoc, ← sq, hh, one_mul]
  unfold colat
  rw [el] at h0 ⊢
  generalize L.sqrt (r (r (x ^ 2) + r (y ^ 2))) = d at *
  have d90 : IsDouble 90 := by exact_mod_cast isDouble_nat (n := 90) (by norm_num)
  have l90 : r (90 - d) ≤ 90 := hr.le_dbl d90 (by linarith)
  have cx := atan2_cos x y
  have sx := atan2_sin x y
  have nz : √(x ^ 2 + y ^ 2) = 0 → x = 0 ∧ y = 0 := by
    intro e; rw [e] at cx sx; exact ⟨by linarith, by linarith⟩
  have N0 := Real.sqrt_nonneg (x ^ 2 + y ^ 2)
  have hd : d ≤ 91 := by
    by_contra hc
    push Not at hc
    have d1 : IsDouble (-1) := by have : IsDouble 1 := by exact_mod_cast isDouble_nat (n := 1) (by norm_num)
                                  exact this.neg
    linarith [hr.le_dbl d1 (show 90 - d ≤ -1 by linarith)]
  have e1 := err128 hr (x := 90 - d) (abs_le.2 ⟨by linarith, by linarith⟩)
  have rho : |90 - r (90 - d) - √(x ^ 2 + y ^ 2)| ≤ 4.2 / 2 ^ 46 := by
    generalize √(x ^ 2 + y ^ 2) = N at *
    obtain ⟨n1a, n1b⟩ := abs_le.1 n1
    obtain ⟨e1a, e1b⟩ := abs_le.1 e1
    norm_num at n1a n1b e1a e1b
    rw [abs_le]
    norm_num
    constructor <;> linarith
  refine ⟨l90, b0, b1, ?_⟩
  generalize hρ : 90 - r (90 - d) = ρ at *
  have ρ0 : 0 ≤ ρ := by linarith
  have ρ1 : ρ ≤ 90 := by linarith
  have key : ∀ {t t' z : ℝ}, |t| ≤ 1 → |t'| ≤ 1 → √(x ^ 2 + y ^ 2) * t = z → ((x ≠ 0 ∨ y ≠ 0) → |t' - t| ≤ 1 / 2 ^ 48) →
      |ρ * t' - z| ≤ 27 / 2 ^ 46 := by
    intro t t' z ht ht' hz hne
    by_cases hc : x = 0 ∧ y = 0
    · have q0 : √(x ^ 2 + y ^ 2) = 0 := by rw [hc.1, hc.2]; simp
      rw [q0, zero_mul] at hz
      rw [q0, sub_zero] at rho
      rw [← hz, sub_zero, abs_mul]
      calc _ ≤ 4.2 / 2 ^ 46 * 1 := mul_le_mul rho ht' (abs_nonneg _) (by norm_num)
        _ ≤ _ := by norm_num
    · have hn := hne (by by_contra hh; push Not at hh; exact hc hh)
      have e : ρ * t' - z = ρ * (t' - t) + (ρ - √(x ^ 2 + y ^ 2)) * t := by rw [← hz]; ring
      rw [e]
      refine (abs_add_le _ _).trans ?_
      rw [abs_mul, abs_mul, abs_of_nonneg ρ0]
      have q1 := mul_le_mul ρ1 hn (abs_nonneg _) (by norm_num)
      have q2 := mul_le_mul rho ht (abs_nonneg _) (by norm_num)
      norm_num at q1 q2 ⊢
      linarith
  constructor
  · refine key (Real.abs_cos_le_one _) (Real.abs_cos_le_one _) cx fun hne => ?_
    obtain ⟨k, hk⟩ := hk hne
    have := hL.trigCos.lip (hourAngle h) (atan2 y x + k * (2 * Real.pi))
    rw [hL.trigCos.per] at this
    exact this.trans hk
  · refine key (Real.abs_sin_le_one _) (Real.abs_sin_le_one _) sx fun hne => ?_
    obtain ⟨k, hk⟩ := hk hne
    have := hL.trigSin.lip (hourAngle h) (atan2 y x + k * (2 * Real.pi))
    rw [hL.trigSin.per] at this
    exact this.trans hk

/-- C188: the round trip in double precision.  When the OCB latitude `normal_coord` gives is in the hemisphere of the
boundary, `revert_coord` with the radius correction `normal_coord` gave leads back to the magnetic latitude within
`(264 S + 278) / 2 ^ 46` degrees (`S` the scaling from OCB to magnetic degrees), and to the local time within
`(16 (131 S + 135) / colatitude + 1) / 2 ^ 46` hours, up to whole days. -/
theorem C188_round_trip {B : Rec} (hv : B.Valid) {lat mlt olat omlt : ℝ} (hB : Rec.Fair B (B.rf mlt)) (h0 : 0 ≤ B.hem * lat)
    (h1 : B.hem * lat ≤ 90) (hm : |mlt| ≤ 48) (hn : NormalD r L B lat mlt olat omlt) (ho : 0 ≤ B.hem * olat) :
    ∃ lat' mlt', (∀ a b, RevertD r L B olat omlt (B.rf mlt) a b ↔ a = lat' ∧ b = mlt') ∧ 0 ≤ mlt' ∧ mlt' < 24 ∧
      |lat' - lat| ≤ (264 * ((B.r + B.rf mlt) / colat B.hem B.blat) + 278) / 2 ^ 46 ∧
      (4 * (131 * ((B.r + B.rf mlt) / colat B.hem B.blat) + 135) / 2 ^ 46 < colat B.hem lat →
        ∃ k : ℤ, |mlt' - (mlt + 24 * k)| ≤
          (16 * (131 * ((B.r + B.rf mlt) / colat B.hem B.blat) + 135) / colat B.hem lat + 1) / 2 ^ 46) := by
  obtain ⟨x, y, u, hx, hy⟩ := normal_xy hr hL hB h0 h1 hm
  obtain ⟨rfl, hu⟩ := (u _ _).1 hn
  have hs2 : B.hem ^ 2 = 1 := by rw [sq]; exact hv.hem_sq
  obtain ⟨o1, m0, m1, qx, qy⟩ := reread hr hL hs2 hu ho
  have hm' : |omlt| ≤ 48 := abs_le.2 ⟨by linarith, by linarith⟩
  have rx := revert_comp hr hL hL.trigCos hv hB ho o1 hm'
  have ry := revert_comp hr hL hL.trigSin hv hB ho o1 hm'
  have eA : colat B.hem B.blat = 90 - |B.blat| := by unfold colat; rw [hv.hem_blat]
  have A0 : (0 : ℝ) < 90 - |B.blat| := lt_of_lt_of_le (by norm_num) hB.ref
  have R0 : (0 : ℝ) < B.r + B.rf mlt := lt_of_lt_of_le (by norm_num) hB.rad
  rw [eA] at rx ry ⊢
  have S0 : 0 < (B.r + B.rf mlt) / (90 - |B.blat|) := div_pos R0 A0
  have eS : (90 - |B.blat|) / (B.r + B.rf mlt) * ((B.r + B.rf mlt) / (90 - |B.blat|)) = 1 := by field_simp
  -- one component
  have key : ∀ {t C v z w : ℝ}, |w - (colat B.hem (latOfD r L B.hem x y) * t * ((B.r + B.rf mlt) / (90 - |B.blat|)) + C)| ≤
        (104 * ((B.r + B.rf mlt) / (90 - |B.blat|)) + 15) / 2 ^ 46 →
      |colat B.hem (latOfD r L B.hem x y) * t - z| ≤ 27 / 2 ^ 46 →
      |z - (v - C) * ((90 - |B.blat|) / (B.r + B.rf mlt))| ≤ 120 / 2 ^ 46 * ((90 - |B.blat|) / (B.r + B.rf mlt)) →
      |w - v| ≤ (131 * ((B.r + B.rf mlt) / (90 - |B.blat|)) + 135) / 2 ^ 46 := by
    intro t C v z w k1 k2 k3
    generalize (B.r + B.rf mlt) / (90 - |B.blat|) = S' at *
    generalize (90 - |B.blat|) / (B.r + B.rf mlt) = S at *
    generalize colat B.hem (latOfD r L B.hem x y) * t = q at *
    have e : w - v = (w - (q * S' + C)) + (q - z) * S' + (z - (v - C) * S) * S' := by
      linear_combination (v - C) * eS
    rw [e]
    refine (abs_add_le _ _).trans ((add_le_add (abs_add_le _ _) le_rfl).trans ?_)
    rw [abs_mul, abs_mul, abs_of_pos S0]
    have f1 := mul_le_mul_of_nonneg_right k2 S0.le
    have f2 := mul_le_mul_of_nonneg_right k3 S0.le
    rw [mul_assoc, eS] at f2
    norm_num at k1 f1 f2 ⊢
    linarith
  have fx := key rx qx (show |x - (colat B.hem lat * Real.cos (hourAngle mlt) - B.rCent * Real.cos (radians B.phiCent)) * _| ≤ _ from hx)
  have fy := key ry qy (show |y - (colat B.hem lat * Real.sin (hourAngle mlt) - B.rCent * Real.sin (radians B.phiCent)) * _| ≤ _ from hy)
  have c0 : 0 ≤ colat B.hem lat := by unfold colat; linarith
  have c1 : colat B.hem lat ≤ 90 := by unfold colat; linarith
  have np : √((colat B.hem lat * Real.cos (hourAngle mlt)) ^ 2 + (colat B.hem lat * Real.sin (hourAngle mlt)) ^ 2) =
      colat B.hem lat := by rw [sqrt_polar, abs_of_nonneg c0]
  have hl := lat_err hr hL fx fy
  have hh := fun ha => hours_err hr hL fx fy ha
  rw [np] at hl hh
  obtain ⟨h, hu', h2, h3, -⟩ := xyHours_err hr hL (revertCompD r L L.cos B (latOfD r L B.hem x y) omlt (B.rf mlt))
    (revertCompD r L L.sin B (latOfD r L B.hem x y) omlt (B.rf mlt))
  refine ⟨_, h, fun a b => by unfold RevertD; rw [hu'], h2, h3, ?_, fun hd => ?_⟩
  · have e : ∀ w z : ℝ, latOfD r L B.hem w z - lat =
        B.hem * (r (90 - L.sqrt (r (r (w ^ 2) + r (z ^ 2)))) - (90 - colat B.hem lat)) := by
      intro w z
      unfold latOfD
      rw [mul_sub, hem_colat hv]
    have a1 : |B.hem| = 1 := by rcases hv.hem with h | h <;> rw [h] <;> norm_num
    rw [e, abs_mul, a1, one_mul]
    refine hl.trans ?_
    generalize (B.r + B.rf mlt) / (90 - |B.blat|) = S' at *
    norm_num
    linarith
  · obtain ⟨h', hu'', -, -, k, hk⟩ := hh (lt_of_eq_of_lt (by ring) hd)
    have : h = h' := (hu'' h).1 ((hu' h).2 rfl)
    rw [← this] at hk
    obtain ⟨k', hk'⟩ := hoursOf_polar (h := mlt) (lt_of_le_of_lt (by positivity) hd)
    refine ⟨k + k', ?_⟩
    rw [hk'] at hk
    have e : h - (mlt + 24 * ((k + k' : ℤ) : ℝ)) = h - (mlt + k' * 24 + 24 * k) := by push_cast; ring
    rw [e]
    exact hk.trans (le_of_eq (by ring))

end Normal

/-! ### Examples: the hypotheses of C186 to C188 are met together -/

/-- Elementary functions without error other than the rounding of the square root. -/
noncomputable def exLib (r : ℝ → ℝ) : Lib :=
  ⟨Real.cos, Real.sin, fun x => r (√x), fun x => x * Real.pi / 180, fun x => x * 180 / Real.pi, atan2⟩

theorem exLib_ok (r : ℝ → ℝ) : Lib.Ok r (exLib r) where
  cos x _ := by simp [exLib]
  sin x _ := by simp [exLib]
  sqrt x _ := rfl
  radians x _ := by simp [exLib]
  degrees x _ := by simp [exLib]
  atan2 x y _ := ⟨0, by simp [exLib]⟩
  atan2_le x y := by
    have : |atan2 y x| ≤ Real.pi := Complex.abs_arg_le_pi _
    exact this.trans Real.pi_lt_four.le

theorem exRec_fair : Rec.Fair exRec (exRec.rf 18) := by
  constructor <;> norm_num [exRec, abs_of_pos]

example : exRec.Valid ∧ Rec.Fair exRec (exRec.rf 18) ∧ 0 ≤ exRec.hem * 79 ∧ exRec.hem * 79 ≤ 90 ∧ |(18 : ℝ)| ≤ 48 ∧
    480 / 2 ^ 46 < distCentre exRec 79 18 := by
  refine ⟨exRec_valid, exRec_fair, by norm_num [exRec], by norm_num [exRec], by norm_num [abs_of_pos], ?_⟩
  have : distCentre exRec 79 18 = 16 := by
    have h : hourAngle 18 - 90 * Real.pi / 180 = Real.pi := by unfold hourAngle; ring
    simp only [distCentre, polarDist2, colat, exRec, h, Real.cos_pi]
    rw [show (90 - 1 * 79 : ℝ) ^ 2 + 5 ^ 2 - 2 * (90 - 1 * 79) * 5 * -1 = 16 ^ 2 by norm_num]
    exact Real.sqrt_sq (by norm_num)
  rw [this]
  norm_num

/-- The example goes through C186 and C188: the OCB latitude is near 74 degrees, and the way back ends within `10 ^ -11`
degrees of 79. -/
example (r : ℝ → ℝ) (hr : Nearest r) : ∃ olat omlt lat' mlt', NormalD r (exLib r) exRec 79 18 olat omlt ∧
    |olat - 74| ≤ 1 / 10 ^ 11 ∧ RevertD r (exLib r) exRec olat omlt 0 lat' mlt' ∧ |lat' - 79| ≤ 1 / 10 ^ 11 := by
  have g0 : 0 ≤ exRec.hem * 79 := by norm_num [exRec]
  have g1 : exRec.hem * 79 ≤ 90 := by norm_num [exRec]
  have g2 : |(18 : ℝ)| ≤ 48 := by norm_num [abs_of_pos]
  obtain ⟨olat, omlt, lat', mlt', u, e, -, -, hl, -⟩ := C186_normal_coord hr (exLib_ok r) exRec_valid exRec_fair g0 g1 g2
  have h74 : lat' = 74 := by
    obtain ⟨l, m, e', hb, -⟩ := C24_boundary_circle exRec exRec_valid 79 18 (by norm_num [exRec])
    rw [e] at e'
    injection e' with e'
    have el : lat' = l := (Prod.mk.inj e').1
    rw [el]
    refine hb.1 ?_
    have h : hourAngle 18 - 90 * Real.pi / 180 = Real.pi := by unfold hourAngle; ring
    simp only [distCentre, polarDist2, colat, exRec, h, Real.cos_pi]
    rw [show (90 - 1 * 79 : ℝ) ^ 2 + 5 ^ 2 - 2 * (90 - 1 * 79) * 5 * -1 = 16 ^ 2 by norm_num, Real.sqrt_sq (by norm_num)]
    norm_num
  have hl' : |olat - 74| ≤ 261 / 2 ^ 46 := by
    rw [h74] at hl
    refine hl.trans ?_
    norm_num [exRec, abs_of_pos]
  have ho : 0 ≤ exRec.hem * olat := by
    have := (abs_le.1 hl').1
    norm_num [exRec] at this ⊢
    linarith
  have hn := (u olat omlt).2 ⟨rfl, rfl⟩
  obtain ⟨lat'', mlt'', u', -, -, hb, -⟩ := C188_round_trip hr (exLib_ok r) exRec_valid exRec_fair g0 g1 g2 hn ho
  refine ⟨olat, omlt, lat'', mlt'', hn, hl'.trans (by norm_num), (u' _ _).2 ⟨rfl, rfl⟩, hb.trans ?_⟩
  norm_num [exRec, colat]

end Ocb.Dbl
