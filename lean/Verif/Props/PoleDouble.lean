import Verif.Lemmas.Sphere
import Verif.Model.PoleDouble
import Verif.Props.HavDouble
import Verif.Props.Pole

/-!
# C190: the pole angle in double precision
-/

set_option autoImplicit false

namespace Ocb.Dbl

open Ocb.Coord Ocb.Vec

/-! ### angles -/

/-- The arc cosine of numbers that are near one another. -/
theorem arccos_near {t T : ℝ} (ht : -1 < t) (ht1 : t < 1) (hT : -1 ≤ T) (hT1 : T ≤ 1) :
    |Real.arccos T - Real.arccos t| ≤ Real.pi * |T - t| / √(1 - t ^ 2) := by
  have hp := Real.pi_pos
  have s0 : 0 < √(1 - t ^ 2) := Real.sqrt_pos.2 (by nlinarith)
  have hs : Real.sin (Real.arccos t) = √(1 - t ^ 2) := Real.sin_arccos t
  have ca := Real.cos_arccos ht.le ht1.le
  have cb := Real.cos_arccos hT hT1
  have a0 := Real.arccos_nonneg t
  have a1 := Real.arccos_le_pi t
  have b0 := Real.arccos_nonneg T
  have b1 := Real.arccos_le_pi T
  have sb := Real.sin_nonneg_of_nonneg_of_le_pi b0 b1
  generalize Real.arccos t = α at *
  generalize Real.arccos T = β at *
  rw [le_div_iff₀ s0, ← hs, ← ca, ← cb]
  have h1 : |Real.cos β - Real.cos α| = 2 * |Real.sin ((β + α) / 2)| * |Real.sin ((β - α) / 2)| := by
    rw [Real.cos_sub_cos, abs_mul, abs_mul]; norm_num
  have h2 : Real.sin α ≤ 2 * |Real.sin ((β + α) / 2)| := by
    have e : Real.sin β + Real.sin α = 2 * Real.sin ((β + α) / 2) * Real.cos ((β - α) / 2) := Real.sin_add_sin β α
    have : 2 * Real.sin ((β + α) / 2) * Real.cos ((β - α) / 2) ≤ 2 * |Real.sin ((β + α) / 2)| := by
      refine (le_abs_self _).trans ?_
      rw [abs_mul, abs_mul, abs_two]
      exact mul_le_of_le_one_right (by positivity) (Real.abs_cos_le_one _)
    linarith
  have h3 : |β - α| ≤ Real.pi * |Real.sin ((β - α) / 2)| := by
    have h4 : |β - α| ≤ Real.pi := abs_le.2 ⟨by linarith, by linarith⟩
    have h5 := Real.mul_le_sin (x := |β - α| / 2) (by positivity) (by linarith)
    have h6 : |Real.sin ((β - α) / 2)| = Real.sin (|β - α| / 2) := by
      rcases abs_cases (β - α) with ⟨e, h⟩ | ⟨e, h⟩
      · rw [e]
        rw [e] at h4
        exact abs_of_nonneg (Real.sin_nonneg_of_nonneg_of_le_pi (by linarith) (by linarith))
      · rw [e, neg_div, Real.sin_neg]
        rw [e] at h4
        refine abs_of_nonpos ?_
        have := Real.sin_nonneg_of_nonneg_of_le_pi (x := -(β - α) / 2) (by linarith) (by linarith)
        rw [neg_div, Real.sin_neg] at this
        linarith
    rw [h6]
    have : 2 / Real.pi * (|β - α| / 2) = |β - α| / Real.pi := by field_simp
    rw [this, div_le_iff₀ hp] at h5
    linarith
  rw [h1]
  have := mul_le_mul h3 h2 (by rw [hs]; exact s0.le) (by positivity)
  linarith

theorem atan2_upper {x y : ℝ} (h : 0 ≤ y) : 0 ≤ atan2 y x ∧ atan2 y x ≤ Real.pi :=
  ⟨Complex.arg_nonneg_iff.2 h, Complex.arg_le_pi _⟩

/-! ### sums and products -/

section Basic

variable {r : ℝ → ℝ} (hr : Nearest r)

include hr in
theorem mul_near {a a' b b' e f : ℝ} (ha : |a| ≤ 1) (hb : |b| ≤ 1) (h1 : |a' - a| ≤ e) (h2 : |b' - b| ≤ f)
    (he : e ≤ 1 / 2 ^ 40) (hf : f ≤ 1 / 2 ^ 40) : |r (a' * b') - a * b| ≤ e + f + 1 / 2 ^ 52 := by
  have e0 := (abs_nonneg _).trans h1
  have f0 := (abs_nonneg _).trans h2
  have h3 : |a' * b' - a * b| ≤ e + f + 1 / 2 ^ 80 := by
    have e1 : a' * b' - a * b = (a' - a) * b + a * (b' - b) + (a' - a) * (b' - b) := by ring
    have i1 : |(a' - a) * b| ≤ e := by
      rw [abs_mul]; exact (mul_le_of_le_one_right (abs_nonneg _) hb).trans h1
    have i2 : |a * (b' - b)| ≤ f := by
      rw [abs_mul]; exact (mul_le_of_le_one_left (abs_nonneg _) ha).trans h2
    have i3 : |(a' - a) * (b' - b)| ≤ 1 / 2 ^ 80 := by
      rw [abs_mul]
      calc _ ≤ (1 / 2 ^ 40 : ℝ) * (1 / 2 ^ 40) := mul_le_mul (h1.trans he) (h2.trans hf) (abs_nonneg _) (by norm_num)
        _ = _ := by norm_num
    rw [e1]
    have := abs_add_le ((a' - a) * b + a * (b' - b)) ((a' - a) * (b' - b))
    have := abs_add_le ((a' - a) * b) (a * (b' - b))
    linarith
  have h4 : |a * b| ≤ 1 := by rw [abs_mul]; exact mul_le_one₀ ha (abs_nonneg _) hb
  have h5 : |a' * b'| ≤ 2 := by
    have := abs_sub_abs_le_abs_sub (a' * b') (a * b)
    norm_num at *
    linarith
  have h6 := hr.err (x := a' * b') (e := -52) (by norm_num) (h5.trans (by norm_num))
  have h7 := abs_sub_le (r (a' * b')) (a' * b') (a * b)
  norm_num at *
  linarith

include hr in
theorem add_near {a a' b b' e f : ℝ} (h1 : |a' - a| ≤ e) (h2 : |b' - b| ≤ f) (h : |a' + b'| ≤ 16) :
    |r (a' + b') - (a + b)| ≤ e + f + 4 / 2 ^ 52 := by
  have h3 := hr.err (x := a' + b') (e := -49) (by norm_num) (by norm_num; exact h)
  have h4 := abs_sub_le (r (a' + b')) (a' + b') (a + b)
  have h5 := abs_add_le (a' - a) (b' - b)
  rw [show a' - a + (b' - b) = a' + b' - (a + b) by ring] at h5
  norm_num at *
  linarith

include hr in
theorem sub_near {a a' b b' e f : ℝ} (h1 : |a' - a| ≤ e) (h2 : |b' - b| ≤ f) (h : |a' - b'| ≤ 16) :
    |r (a' - b') - (a - b)| ≤ e + f + 4 / 2 ^ 52 := by
  have := add_near hr (a' := a') (b' := -b') (b := -b) h1 (f := f) (by rwa [neg_sub_neg, abs_sub_comm]) (by rwa [← sub_eq_add_neg])
  rwa [← sub_eq_add_neg, ← sub_eq_add_neg] at this

theorem Lib.Ok.sin_near {L : Lib} (hL : L.Ok r) {x x' e : ℝ} (h : |x' - x| ≤ e) (hx : |x'| ≤ 16) :
    |L.sin x' - Real.sin x| ≤ e + 1 / 2 ^ 52 := by
  have h1 := hL.sin x' hx
  have h2 := Real.abs_sin_sub_sin_le x' x
  have h3 := abs_sub_le (L.sin x') (Real.sin x') (Real.sin x)
  linarith

theorem Lib.Ok.cos_near {L : Lib} (hL : L.Ok r) {x x' e : ℝ} (h : |x' - x| ≤ e) (hx : |x'| ≤ 16) :
    |L.cos x' - Real.cos x| ≤ e + 1 / 2 ^ 52 := by
  have h1 := hL.cos x' hx
  have h2 := Real.abs_cos_sub_cos_le x' x
  have h3 := abs_sub_le (L.cos x') (Real.cos x') (Real.cos x)
  linarith

theorem abs_near {x x' e c : ℝ} (h : |x' - x| ≤ e) (hx : |x| ≤ c) : |x'| ≤ c + e := by
  have := abs_sub_abs_le_abs_sub x' x
  linarith

end Basic

/-! ### the sides of the triangle -/

section Main

variable {r : ℝ → ℝ} (hr : Nearest r) {L : Lib} (hL : L.Ok r)

include hL in
theorem radians_near {x : ℝ} (h : |x| ≤ 90) : |L.radians x - radians x| ≤ 8 / 2 ^ 52 ∧ |radians x| ≤ 2 ∧ |L.radians x| ≤ 3 := by
  have h1 : |L.radians x - radians x| ≤ 8 / 2 ^ 52 := (hL.radians x (h.trans (by norm_num))).trans (by norm_num)
  have h2 : |radians x| ≤ 2 := by
    unfold radians
    rw [mul_div_assoc, abs_mul, abs_of_pos (by positivity : 0 < Real.pi / 180)]
    have := Real.pi_lt_d2
    calc _ ≤ 90 * (3.15 / 180) := mul_le_mul h (by linarith) (by positivity) (by norm_num)
      _ ≤ _ := by norm_num
  exact ⟨h1, h2, (abs_near h1 h2).trans (by norm_num)⟩

include hr hL in
theorem side_near {hem x : ℝ} (hh : hem = 1 ∨ hem = -1) (h : |x| ≤ 90) :
    |sideD r L hem x - (Real.pi / 2 - hem * radians x)| ≤ 13 / 2 ^ 52 := by
  obtain ⟨h1, h2, h3⟩ := radians_near hL h
  obtain ⟨p1, p2⟩ := piD_bounds
  have p3 := Real.pi_lt_d2
  have p4 : 3 < piD := by unfold piD; norm_num
  have h4 : |hem * piD * (1 / 2) - hem * Real.pi * (1 / 2)| ≤ (1 / 2) / 2 ^ 52 := by
    rw [abs_le]
    rcases hh with rfl | rfl <;> norm_num at * <;> constructor <;> linarith
  have h5 : |hem * piD * (1 / 2)| ≤ 2 := by
    rw [abs_le]
    rcases hh with rfl | rfl <;> norm_num at * <;> constructor <;> linarith
  have h6 := sub_near hr h4 h1 ((abs_sub _ _).trans (by linarith))
  have e : sideD r L hem x - (Real.pi / 2 - hem * radians x) =
      hem * (r (hem * piD * (1 / 2) - L.radians x) - (hem * Real.pi * (1 / 2) - radians x)) := by
    unfold sideD
    rcases hh with rfl | rfl <;> ring
  have e2 : |hem| = 1 := by rcases hh with rfl | rfl <;> simp
  rw [e, abs_mul, e2, one_mul]
  norm_num at *
  linarith

include hr hL in
theorem dest_near (hat : ∀ x y : ℝ, 0 ≤ y → (x ≠ 0 ∨ y ≠ 0) → |L.atan2 y x - atan2 y x| ≤ 1 / 2 ^ 51) {lon Λ da pa : ℝ}
    (hs : |L.sin lon - Real.sin Λ| ≤ 71 / 2 ^ 52) (hc : |L.cos lon - Real.cos Λ| ≤ 71 / 2 ^ 52) (hda : |da| ≤ 90)
    (hpa : |pa| ≤ 90) :
    |destD r L lon da pa - atan2 (tLen (radians da) (radians pa) Λ) (cDist (radians da) (radians pa) Λ)| ≤ 818 / 2 ^ 52 := by
  obtain ⟨d1, -, d3⟩ := radians_near hL hda
  obtain ⟨p1, -, p3⟩ := radians_near hL hpa
  have cd := hL.cos_near d1 (by linarith)
  have sd := hL.sin_near d1 (by linarith)
  have cp := hL.cos_near p1 (by linarith)
  have sp := hL.sin_near p1 (by linarith)
  unfold destD
  simp only
  have bE := mul_near hr (Real.abs_cos_le_one _) (Real.abs_sin_le_one _) cp hs (by norm_num) (by norm_num)
  have b1 := mul_near hr (Real.abs_cos_le_one _) (Real.abs_sin_le_one _) cd sp (by norm_num) (by norm_num)
  have b2 := mul_near hr (Real.abs_sin_le_one _) (Real.abs_cos_le_one _) sd cp (by norm_num) (by norm_num)
  have b3 := mul_near hr (Real.abs_sin_le_one _) (Real.abs_sin_le_one _) sd sp (by norm_num) (by norm_num)
  have b4 := mul_near hr (Real.abs_cos_le_one _) (Real.abs_cos_le_one _) cd cp (by norm_num) (by norm_num)
  have one : ∀ x y : ℝ, |x| ≤ 1 → |y| ≤ 1 → |x * y| ≤ 1 := fun x y hx hy => by
    rw [abs_mul]; exact mul_le_one₀ hx (abs_nonneg _) hy
  have o1 := one _ _ (Real.abs_cos_le_one (radians da)) (Real.abs_sin_le_one (radians pa))
  have o2 := one _ _ (Real.abs_sin_le_one (radians da)) (Real.abs_cos_le_one (radians pa))
  have o3 := one _ _ (Real.abs_sin_le_one (radians da)) (Real.abs_sin_le_one (radians pa))
  have o4 := one _ _ (Real.abs_cos_le_one (radians da)) (Real.abs_cos_le_one (radians pa))
  have b5 := mul_near hr o2 (Real.abs_cos_le_one _) b2 hc (by norm_num) (by norm_num)
  have b6 := mul_near hr o4 (Real.abs_cos_le_one _) b4 hc (by norm_num) (by norm_num)
  have o5 := one _ _ o2 (Real.abs_cos_le_one Λ)
  have o6 := one _ _ o4 (Real.abs_cos_le_one Λ)
  have bN := sub_near hr b1 b5 ((abs_sub _ _).trans (by
    have := abs_near b1 o1
    have := abs_near b5 o5
    norm_num at *
    linarith))
  have bX := add_near hr b3 b6 ((abs_add_le _ _).trans (by
    have := abs_near b3 o3
    have := abs_near b6 o6
    norm_num at *
    linarith))
  rw [show Real.cos (radians da) * Real.sin (radians pa) - Real.sin (radians da) * Real.cos (radians pa) * Real.cos Λ =
    tN (radians da) (radians pa) Λ from rfl] at bN
  rw [show Real.sin (radians da) * Real.sin (radians pa) + Real.cos (radians da) * Real.cos (radians pa) * Real.cos Λ =
    cDist (radians da) (radians pa) Λ from rfl] at bX
  rw [show Real.cos (radians pa) * Real.sin Λ = tE (radians pa) Λ from rfl] at bE
  have hsq := tLen_sq (radians da) (radians pa) Λ
  have hl0 := tLen_nonneg (radians da) (radians pa) Λ
  have hl : tLen (radians da) (radians pa) Λ = √(tE (radians pa) Λ ^ 2 + tN (radians da) (radians pa) Λ ^ 2) := rfl
  generalize r (L.cos (L.radians pa) * L.sin lon) = E' at *
  generalize r (r (L.cos (L.radians da) * L.sin (L.radians pa)) -
    r (r (L.sin (L.radians da) * L.cos (L.radians pa)) * L.cos lon)) = N' at *
  generalize r (r (L.sin (L.radians da) * L.sin (L.radians pa)) +
    r (r (L.cos (L.radians da) * L.cos (L.radians pa)) * L.cos lon)) = X' at *
  generalize tE (radians pa) Λ = E at *
  generalize tN (radians da) (radians pa) Λ = N at *
  generalize cDist (radians da) (radians pa) Λ = X at *
  generalize tLen (radians da) (radians pa) Λ = y at *
  have n1 := norm_err hr hL E' N'
  have n2 := norm_sub_le E' N' E N
  rw [← hl] at n2
  have hy1 : y ≤ 1 := by nlinarith [sq_nonneg X]
  have y0 : 0 ≤ L.sqrt (r (r (E' ^ 2) + r (N' ^ 2))) := by
    rw [hL.sqrt _ (hr.nonneg (add_nonneg (hr.nonneg (sq_nonneg _)) (hr.nonneg (sq_nonneg _))))]
    exact hr.nonneg (Real.sqrt_nonneg _)
  generalize L.sqrt (r (r (E' ^ 2) + r (N' ^ 2))) = y' at *
  have n3 : √(E' ^ 2 + N' ^ 2) ≤ 2 := by
    have := (abs_le.1 n2).2
    norm_num at *
    linarith
  have hy : |y' - y| ≤ 204 / 2 ^ 52 := by
    have := abs_sub_le y' (√(E' ^ 2 + N' ^ 2)) y
    norm_num at *
    linarith
  have hx : |X' - X| ≤ 204 / 2 ^ 52 := by
    norm_num at *
    linarith
  have one' : √(X ^ 2 + y ^ 2) = 1 := by rw [hsq]; simp
  obtain ⟨k, hk⟩ := angle_near hx hy (by rw [one']; norm_num)
  rw [one', div_one] at hk
  have ne : X' ≠ 0 ∨ y' ≠ 0 := by
    by_contra hc
    push Not at hc
    rw [hc.1] at hx
    rw [hc.2] at hy
    rw [zero_sub, abs_neg] at hx hy
    have h1 : X ^ 2 ≤ (204 / 2 ^ 52) ^ 2 := by rw [← sq_abs]; exact pow_le_pow_left₀ (abs_nonneg _) hx 2
    have h2 : y ^ 2 ≤ (204 / 2 ^ 52) ^ 2 := by rw [← sq_abs]; exact pow_le_pow_left₀ (abs_nonneg _) hy 2
    norm_num at *
    linarith
  have h1 := hat X' y' y0 ne
  obtain ⟨u1, u2⟩ := atan2_upper (x := X') y0
  obtain ⟨u3, u4⟩ := atan2_upper (x := X) hl0
  have hp := Real.pi_gt_three
  have k0 : k = 0 := by
    by_contra hc
    obtain ⟨h3, h4⟩ := abs_le.1 hk
    rcases lt_or_gt_of_ne hc with h | h
    · have : (k : ℝ) ≤ -1 := by exact_mod_cast (by omega : k ≤ -1)
      have : (k : ℝ) * (2 * Real.pi) ≤ -1 * (2 * Real.pi) := mul_le_mul_of_nonneg_right this (by positivity)
      norm_num at *
      linarith
    · have : (1 : ℝ) ≤ k := by exact_mod_cast (by omega : 1 ≤ k)
      have : 1 * (2 * Real.pi) ≤ (k : ℝ) * (2 * Real.pi) := mul_le_mul_of_nonneg_right this (by positivity)
      norm_num at *
      linarith
  rw [k0, Int.cast_zero, zero_mul, add_zero] at hk
  have := abs_sub_le (L.atan2 y' X') (atan2 y' X') (atan2 y X)
  norm_num at *
  linarith

include hr hL in
/-- The angle from the square of the cosine of its half. -/
theorem angle_of_half {acos : ℝ → ℝ} (hac : ∀ x, 0 ≤ x → x ≤ 1 → |acos x - Real.arccos x| ≤ 1 / 2 ^ 52) {t m q : ℝ}
    (ht : -1 < t) (ht1 : t < 1) (mp : 0 < m) (m1 : m ≤ 1) (j1 : -(1734 / 2 ^ 52 / m) ≤ q - (1 + t) / 2)
    (j2 : q - (1 + t) / 2 ≤ 1734 / 2 ^ 52 / m) (i1 : 1734 / 2 ^ 52 / m ≤ (1 - t ^ 2) / 4) :
    0 ≤ q ∧ L.sqrt q ≤ 1 ∧ |L.degrees (r (2 * acos (L.sqrt q))) - degrees (Real.arccos t)| ≤
      1 / 2 ^ 32 / (m * √(1 - t ^ 2)) := by
  have t2 : 0 < 1 - t ^ 2 := by nlinarith
  have i2 : (1 - t ^ 2) / 4 ≤ (1 + t) / 2 := by nlinarith [sq_nonneg (1 + t)]
  have i3 : (1 - t ^ 2) / 4 ≤ 1 - (1 + t) / 2 := by nlinarith [sq_nonneg (1 - t)]
  have i4 : (1 : ℝ) / 2 ^ 52 ≤ 1 / 2 ^ 52 / m := le_div_self (by norm_num) mp m1
  have q0 : 0 ≤ q := by linarith
  have q1 : q ≤ 1 := by linarith
  have r1 : √q ≤ 1 := Real.sqrt_le_one.2 q1
  have r0 := Real.sqrt_nonneg q
  have w0 : 0 ≤ L.sqrt q := by rw [hL.sqrt _ q0]; exact hr.nonneg r0
  have w1 : L.sqrt q ≤ 1 := by
    rw [hL.sqrt _ q0]
    exact hr.le_dbl (by exact_mod_cast isDouble_int (n := 1) (by norm_num)) r1
  have w3 := pow_le_one₀ (n := 2) w0 w1
  have w2 : |(L.sqrt q) ^ 2 - q| ≤ 1 / 2 ^ 53 := by
    have h1 := hr.err (x := √q) (e := -53) (by norm_num) (by rw [abs_of_nonneg r0]; exact r1.trans (by norm_num))
    rw [← hL.sqrt _ q0] at h1
    have h2 : (L.sqrt q) ^ 2 - q = (L.sqrt q - √q) * (L.sqrt q + √q) := by
      have := Real.sq_sqrt q0
      linear_combination this
    rw [h2, abs_mul, abs_of_nonneg (add_nonneg w0 r0)]
    calc _ ≤ (2 ^ (-53 : ℤ) / 2 : ℝ) * 2 := mul_le_mul h1 (by linarith) (by positivity) (by positivity)
      _ = _ := by norm_num
  refine ⟨q0, w1, ?_⟩
  have e3 : 2 * Real.arccos (L.sqrt q) = Real.arccos (2 * (L.sqrt q) ^ 2 - 1) := by
    rw [← two_arccos_sqrt (t := 2 * (L.sqrt q) ^ 2 - 1) (by linarith [sq_nonneg (L.sqrt q)]) (by linarith)]
    rw [show (1 + (2 * (L.sqrt q) ^ 2 - 1)) / 2 = (L.sqrt q) ^ 2 by ring, Real.sqrt_sq w0]
  have e4 := arccos_near (T := 2 * (L.sqrt q) ^ 2 - 1) ht ht1 (by linarith [sq_nonneg (L.sqrt q)]) (by linarith)
  have e5 : |2 * (L.sqrt q) ^ 2 - 1 - t| ≤ 3470 / 2 ^ 52 / m := by
    obtain ⟨k1, k2⟩ := abs_le.1 w2
    have i6 : 3470 / 2 ^ 52 / m = 2 * (1734 / 2 ^ 52 / m) + 2 * (1 / 2 ^ 52 / m) := by ring
    rw [abs_le]
    constructor <;> norm_num at * <;> linarith
  have S0 : 0 < √(1 - t ^ 2) := Real.sqrt_pos.2 t2
  have S1 : √(1 - t ^ 2) ≤ 1 := Real.sqrt_le_one.2 (by nlinarith [sq_nonneg t])
  have D0 : 0 < m * √(1 - t ^ 2) := by positivity
  have D1 : m * √(1 - t ^ 2) ≤ 1 := mul_le_one₀ m1 S0.le S1
  have e6 : |Real.arccos (2 * (L.sqrt q) ^ 2 - 1) - Real.arccos t| ≤ Real.pi * (3470 / 2 ^ 52 / (m * √(1 - t ^ 2))) := by
    refine e4.trans ?_
    rw [mul_div_assoc, ← div_div]
    exact mul_le_mul_of_nonneg_left (div_le_div_of_nonneg_right e5 S0.le) Real.pi_pos.le
  have e7 := hac (L.sqrt q) w0 w1
  have a0 := Real.arccos_nonneg (2 * (L.sqrt q) ^ 2 - 1)
  have a1 := Real.arccos_le_pi (2 * (L.sqrt q) ^ 2 - 1)
  have hp := Real.pi_lt_d2
  have hp3 := Real.pi_gt_three
  have e8 : |2 * acos (L.sqrt q) - Real.arccos (2 * (L.sqrt q) ^ 2 - 1)| ≤ 2 / 2 ^ 52 := by
    rw [← e3, ← mul_sub, abs_mul, abs_two]
    norm_num at *
    linarith
  have e9 : |2 * acos (L.sqrt q)| ≤ 3.5 := by
    have := abs_near e8 (c := 3.15) (by rw [abs_of_nonneg a0]; linarith)
    norm_num at *
    linarith
  have e10 := hr.err (x := 2 * acos (L.sqrt q)) (e := -51) (by norm_num) (e9.trans (by norm_num))
  have e11 := abs_near e10 e9
  have e12 := hL.degrees (r (2 * acos (L.sqrt q))) (by norm_num at *; linarith)
  have e13 : |r (2 * acos (L.sqrt q)) - Real.arccos t| ≤ Real.pi * (3470 / 2 ^ 52 / (m * √(1 - t ^ 2))) + 3 / 2 ^ 52 := by
    have h1 := abs_sub_le (r (2 * acos (L.sqrt q))) (2 * acos (L.sqrt q)) (Real.arccos t)
    have h2 := abs_sub_le (2 * acos (L.sqrt q)) (Real.arccos (2 * (L.sqrt q) ^ 2 - 1)) (Real.arccos t)
    norm_num at *
    linarith
  have e14 : |r (2 * acos (L.sqrt q)) * 180 / Real.pi - degrees (Real.arccos t)| ≤
      180 * (3470 / 2 ^ 52 / (m * √(1 - t ^ 2))) + 180 / 2 ^ 52 := by
    have h1 : r (2 * acos (L.sqrt q)) * 180 / Real.pi - degrees (Real.arccos t) =
        (r (2 * acos (L.sqrt q)) - Real.arccos t) * (180 / Real.pi) := by unfold degrees; ring
    rw [h1, abs_mul, abs_of_pos (by positivity : 0 < 180 / Real.pi)]
    have h2 := mul_le_mul_of_nonneg_right e13 (by positivity : 0 ≤ 180 / Real.pi)
    have h3 : (Real.pi * (3470 / 2 ^ 52 / (m * √(1 - t ^ 2))) + 3 / 2 ^ 52) * (180 / Real.pi) =
        180 * (3470 / 2 ^ 52 / (m * √(1 - t ^ 2))) + 3 / Real.pi * (180 / 2 ^ 52) := by
      field_simp
    have h4 : 3 / Real.pi ≤ 1 := (div_le_one (by linarith)).2 hp3.le
    have h5 : 3 / Real.pi * (180 / 2 ^ 52) ≤ 1 * (180 / 2 ^ 52) := mul_le_mul_of_nonneg_right h4 (by norm_num)
    linarith
  have e15 := abs_sub_le (L.degrees (r (2 * acos (L.sqrt q)))) (r (2 * acos (L.sqrt q)) * 180 / Real.pi) (degrees (Real.arccos t))
  have e16 : (436 : ℝ) / 2 ^ 52 ≤ 436 / 2 ^ 52 / (m * √(1 - t ^ 2)) := le_div_self (by norm_num) D0 D1
  have e17 : 180 * (3470 / 2 ^ 52 / (m * √(1 - t ^ 2))) + 436 / 2 ^ 52 / (m * √(1 - t ^ 2)) ≤
      1 / 2 ^ 32 / (m * √(1 - t ^ 2)) := by
    rw [← mul_div_assoc, ← add_div]
    exact div_le_div_of_nonneg_right (by norm_num) D0.le
  generalize m * √(1 - t ^ 2) = D at *
  norm_num at e12 e14 e15 e16 e17 ⊢
  linarith

include hr hL in
/-- The angle from the three sides, `q` the square of the cosine of half of the exact angle. -/
theorem half_near {acos : ℝ → ℝ} (hac : ∀ x, 0 ≤ x → x ≤ 1 → |acos x - Real.arccos x| ≤ 1 / 2 ^ 52)
    {P V C P' V' C' t : ℝ} (hP : |P' - P| ≤ 13 / 2 ^ 52) (hV : |V' - V| ≤ 13 / 2 ^ 52) (hC : |C' - C| ≤ 818 / 2 ^ 52)
    (bP : |P| ≤ 4) (bV : |V| ≤ 4) (bC : |C| ≤ 4) (m0 : 1 / 2 ^ 20 ≤ Real.sin V * Real.sin C) (ht : -1 < t) (ht1 : t < 1)
    (hq : Real.sin (1 / 2 * (V + C + P)) * Real.sin (1 / 2 * (V + C + P) - P) / (Real.sin V * Real.sin C) = (1 + t) / 2)
    (hV2 : 7000 / 2 ^ 52 ≤ Real.sin V * Real.sin C * (1 - t ^ 2)) :
    ∃ b, halfD r L acos P' V' C' = some b ∧
      |b - degrees (Real.arccos t)| ≤ 1 / 2 ^ 32 / (Real.sin V * Real.sin C * √(1 - t ^ 2)) := by
  have bP' := abs_near hP bP
  have bV' := abs_near hV bV
  have bC' := abs_near hC bC
  have a1 := add_near hr hV hC ((abs_add_le _ _).trans (by norm_num at *; linarith))
  have c1 : |V + C| ≤ 8 := (abs_add_le _ _).trans (by linarith)
  have c1' := abs_near a1 c1
  have a2 := add_near hr a1 hP ((abs_add_le _ _).trans (by norm_num at *; linarith))
  have c2 : |V + C + P| ≤ 12 := (abs_add_le _ _).trans (by linarith)
  have c2' := abs_near a2 c2
  have a3 : |r (1 / 2 * r (r (V' + C') + P')) - 1 / 2 * (V + C + P)| ≤ 430 / 2 ^ 52 := by
    have h1 := hr.err (x := 1 / 2 * r (r (V' + C') + P')) (e := -49) (by norm_num) (by
      rw [abs_mul]; norm_num at *; linarith)
    have h2 := abs_sub_le (r (1 / 2 * r (r (V' + C') + P'))) (1 / 2 * r (r (V' + C') + P')) (1 / 2 * (V + C + P))
    have h3 : |1 / 2 * r (r (V' + C') + P') - 1 / 2 * (V + C + P)| = 1 / 2 * |r (r (V' + C') + P') - (V + C + P)| := by
      rw [← mul_sub, abs_mul]; norm_num
    norm_num at *
    linarith
  have c3 : |1 / 2 * (V + C + P)| ≤ 6 := by rw [abs_mul]; norm_num at *; linarith
  have c3' := abs_near a3 c3
  have a4 := sub_near hr a3 hP ((abs_sub _ _).trans (by norm_num at *; linarith))
  have c4' := abs_near a4 ((abs_sub _ _).trans (add_le_add c3 bP))
  have s3 := hL.sin_near a3 (by norm_num at *; linarith)
  have s4 := hL.sin_near a4 (by norm_num at *; linarith)
  have sV := hL.sin_near hV (by norm_num at *; linarith)
  have sC := hL.sin_near hC (by norm_num at *; linarith)
  have n1 := mul_near hr (Real.abs_sin_le_one _) (Real.abs_sin_le_one _) s3 s4 (by norm_num) (by norm_num)
  have n2 := mul_near hr (Real.abs_sin_le_one _) (Real.abs_sin_le_one _) sV sC (by norm_num) (by norm_num)
  have m1 : Real.sin V * Real.sin C ≤ 1 := by
    refine (le_abs_self _).trans ?_
    rw [abs_mul]
    exact mul_le_one₀ (Real.abs_sin_le_one _) (abs_nonneg _) (Real.abs_sin_le_one _)
  unfold halfD
  simp only
  generalize r (1 / 2 * r (r (V' + C') + P')) = s' at *
  generalize r (L.sin s' * L.sin (r (s' - P'))) = n' at *
  generalize r (L.sin V' * L.sin C') = m' at *
  generalize Real.sin (1 / 2 * (V + C + P)) * Real.sin (1 / 2 * (V + C + P) - P) = n at *
  generalize Real.sin V * Real.sin C = m at *
  clear a1 a2 a3 a4 s3 s4 sV sC c1 c2 c3 c1' c2' c3' c4' bP bV bC bP' bV' bC' hP hV hC
  have mp : 0 < m := lt_of_lt_of_le (by norm_num) m0
  have t2 : 0 < 1 - t ^ 2 := by nlinarith
  have d0 : 0.99 * m ≤ m' := by
    have := (abs_le.1 n2).1
    norm_num at *
    linarith
  have d1 : 0 < m' := lt_of_lt_of_le (by positivity) d0
  have e1 : |n' / m' - (1 + t) / 2| ≤ 1733 / 2 ^ 52 / m := by
    have hn : n = (1 + t) / 2 * m := by rw [← hq]; field_simp
    have h1 : n' / m' - (1 + t) / 2 = ((n' - n) - (1 + t) / 2 * (m' - m)) / m' := by rw [hn]; field_simp; ring
    have h2 : |(n' - n) - (1 + t) / 2 * (m' - m)| ≤ 1715 / 2 ^ 52 := by
      have h3 : |(1 + t) / 2 * (m' - m)| ≤ |m' - m| := by
        rw [abs_mul, abs_of_pos (by linarith : 0 < (1 + t) / 2)]
        exact mul_le_of_le_one_left (abs_nonneg _) (by linarith)
      have h4 := abs_sub (n' - n) ((1 + t) / 2 * (m' - m))
      norm_num at *
      linarith
    rw [h1, abs_div, abs_of_pos d1, div_le_div_iff₀ d1 mp]
    have h5 := mul_le_mul_of_nonneg_right h2 mp.le
    norm_num at *
    linarith
  have i1 : 1734 / 2 ^ 52 / m ≤ (1 - t ^ 2) / 4 := by
    rw [div_le_iff₀ mp]
    norm_num at *
    linarith
  have i2 : (1 - t ^ 2) / 4 ≤ (1 + t) / 2 := by nlinarith [sq_nonneg (1 + t)]
  have i3 : (1 - t ^ 2) / 4 ≤ 1 - (1 + t) / 2 := by nlinarith [sq_nonneg (1 - t)]
  have i4 : (1 : ℝ) / 2 ^ 52 ≤ 1 / 2 ^ 52 / m := le_div_self (by norm_num) mp m1
  have i5 : 1734 / 2 ^ 52 / m = 1733 / 2 ^ 52 / m + 1 / 2 ^ 52 / m := by rw [← add_div]; norm_num
  have e2 : |r (n' / m') - (1 + t) / 2| ≤ 1734 / 2 ^ 52 / m := by
    have h1 := abs_near e1 (c := 1) (by rw [abs_of_nonneg (by linarith)]; linarith)
    have h3 := hr.err (x := n' / m') (e := -52) (by norm_num) (h1.trans (by norm_num at *; nlinarith))
    have h2 := abs_sub_le (r (n' / m')) (n' / m') ((1 + t) / 2)
    norm_num at *
    linarith
  obtain ⟨q0, w1, hb⟩ := angle_of_half hr hL hac ht ht1 mp m1 (abs_le.1 e2).1 (abs_le.1 e2).2 i1
  rw [if_neg d1.ne', if_neg (not_lt.2 q0), if_neg (not_lt.2 w1)]
  exact ⟨_, rfl, hb⟩

include hr in
theorem lon_near {dl pl : ℝ} (hd : |dl| ≤ 24) (hp : |pl| ≤ 24) :
    ∃ a, (∀ out, Hr2rad r (r (pl - dl)) piD out ↔ out = .ok a) ∧ |a| ≤ 4 ∧
      ∃ k : ℤ, |a - (hourAngle (pl - dl) + k * (2 * Real.pi))| ≤ 69 / 2 ^ 52 := by
  have h0 : |pl - dl| ≤ 48 := (abs_sub _ _).trans (by linarith)
  obtain ⟨h1, h2⟩ := abs_le.1 h0
  have d48 : IsDouble 48 := by exact_mod_cast isDouble_nat (n := 48) (by norm_num)
  have h3 : |r (pl - dl)| ≤ 48 := abs_le.2 ⟨hr.dbl_le d48.neg h1, hr.le_dbl d48 h2⟩
  obtain ⟨a, ha, a1, a2, k, hk⟩ := C153_half hr h3
  have p1 : piD < 4 := by unfold piD; norm_num
  refine ⟨a, ha, abs_le.2 ⟨by linarith, by linarith⟩, k, ?_⟩
  have h4 := hr.err (x := pl - dl) (e := -47) (by norm_num) (h0.trans (by norm_num))
  have h5 : |r (pl - dl) * Real.pi / 12 - hourAngle (pl - dl)| ≤ 5 / 2 ^ 52 := by
    have e : r (pl - dl) * Real.pi / 12 - hourAngle (pl - dl) = (r (pl - dl) - (pl - dl)) * (Real.pi / 12) := by
      unfold hourAngle; ring
    have hp := Real.pi_lt_d2
    rw [e, abs_mul, abs_of_pos (by positivity : 0 < Real.pi / 12)]
    calc _ ≤ (2 ^ (-47 : ℤ) / 2 : ℝ) * (3.15 / 12) := mul_le_mul h4 (by linarith) (by positivity) (by positivity)
      _ ≤ _ := by norm_num
  have h6 := abs_sub_le a (r (pl - dl) * Real.pi / 12 + k * (2 * Real.pi)) (hourAngle (pl - dl) + k * (2 * Real.pi))
  rw [add_sub_add_right_eq_sub] at h6
  norm_num at hk h5 h6 ⊢
  linarith

end Main

/-- The half-angle formula with the exact sides. -/
theorem half_exact {a b Λ s : ℝ} (hs : s = 1 ∨ s = -1) (ha : 0 < Real.cos a) (hy : 0 < tLen a b Λ) :
    Real.sin (1 / 2 * (Real.pi / 2 - s * a + atan2 (tLen a b Λ) (cDist a b Λ) + (Real.pi / 2 - s * b))) *
      Real.sin (1 / 2 * (Real.pi / 2 - s * a + atan2 (tLen a b Λ) (cDist a b Λ) + (Real.pi / 2 - s * b)) -
        (Real.pi / 2 - s * b)) / (Real.cos a * tLen a b Λ) = (1 + s * tN a b Λ / tLen a b Λ) / 2 ∧
    Real.sin (Real.pi / 2 - s * a) = Real.cos a ∧ Real.sin (atan2 (tLen a b Λ) (cDist a b Λ)) = tLen a b Λ := by
  have hsq := tLen_sq a b Λ
  have hc := atan2_cos (cDist a b Λ) (tLen a b Λ)
  have hsn := atan2_sin (cDist a b Λ) (tLen a b Λ)
  have hone : √(cDist a b Λ ^ 2 + tLen a b Λ ^ 2) = 1 := by rw [hsq]; simp
  rw [hone, one_mul] at hc hsn
  generalize atan2 (tLen a b Λ) (cDist a b Λ) = d at *
  have cP : Real.cos (Real.pi / 2 - s * b) = s * Real.sin b := by
    rw [Real.cos_pi_div_two_sub]; rcases hs with rfl | rfl <;> simp
  have sV : Real.sin (Real.pi / 2 - s * a) = Real.cos a := by
    rw [Real.sin_pi_div_two_sub]; rcases hs with rfl | rfl <;> simp
  have cV : Real.cos (Real.pi / 2 - s * a) = s * Real.sin a := by
    rw [Real.cos_pi_div_two_sub]; rcases hs with rfl | rfl <;> simp
  refine ⟨?_, sV, hsn⟩
  generalize Real.pi / 2 - s * b = P at *
  generalize Real.pi / 2 - s * a = V at *
  have num : Real.sin (1 / 2 * (V + d + P)) * Real.sin (1 / 2 * (V + d + P) - P) = (Real.cos P - Real.cos (V + d)) / 2 := by
    have e1 : P = 1 / 2 * (V + d + P) - (1 / 2 * (V + d + P) - P) := by ring
    have e2 : V + d = 1 / 2 * (V + d + P) + (1 / 2 * (V + d + P) - P) := by ring
    have h1 : Real.cos P = Real.cos (1 / 2 * (V + d + P) - (1 / 2 * (V + d + P) - P)) := by rw [← e1]
    have h2 : Real.cos (V + d) = Real.cos (1 / 2 * (V + d + P) + (1 / 2 * (V + d + P) - P)) := by rw [← e2]
    rw [h1, h2, Real.cos_sub, Real.cos_add]
    ring
  rw [num, Real.cos_add, cP, cV, sV, hc, hsn]
  have hl := law a b Λ
  rw [div_div, div_eq_div_iff (by positivity) (by norm_num)]
  have : s * tN a b Λ / tLen a b Λ * (2 * (Real.cos a * tLen a b Λ)) = 2 * s * (Real.cos a * tN a b Λ) := by field_simp
  linear_combination (2 * s) * hl - this

/-- The sine of the pole angle: law of sines. -/
theorem sine_angle {a b Λ s : ℝ} (hs : s = 1 ∨ s = -1) (hb : 0 < Real.cos b) (hy : 0 < tLen a b Λ) :
    √(1 - (s * tN a b Λ / tLen a b Λ) ^ 2) = Real.cos b * |Real.sin Λ| / tLen a b Λ := by
  have h1 : tLen a b Λ ^ 2 = tE b Λ ^ 2 + tN a b Λ ^ 2 := Real.sq_sqrt (by positivity)
  have hss : s ^ 2 = 1 := by rcases hs with rfl | rfl <;> norm_num
  have h2 : 1 - (s * tN a b Λ / tLen a b Λ) ^ 2 = (Real.cos b * |Real.sin Λ| / tLen a b Λ) ^ 2 := by
    rw [div_pow, div_pow, mul_pow, mul_pow, hss, sq_abs, one_mul, ← mul_pow, eq_div_iff (by positivity), sub_mul,
      div_mul_cancel₀ _ (by positivity), h1]
    unfold tE
    ring
  rw [h2, Real.sqrt_sq (by positivity)]

section Main

variable {r : ℝ → ℝ} (hr : Nearest r) {L : Lib} (hL : L.Ok r)

include hr hL in
/-- **C190** `calc_vec_pole_angle` in double precision: the result is a number, never NaN, and near the angle at the data of the
spherical triangle with the two poles, when the data are not too near the meridian of the poles, a pole or the destination
pole, measured by `cos(data_lat) cos(pole_lat) |sin(hour angle)|`. -/
theorem C190_pole_angle (hat : ∀ x y : ℝ, 0 ≤ y → (x ≠ 0 ∨ y ≠ 0) → |L.atan2 y x - atan2 y x| ≤ 1 / 2 ^ 51) {acos : ℝ → ℝ}
    (hac : ∀ x, 0 ≤ x → x ≤ 1 → |acos x - Real.arccos x| ≤ 1 / 2 ^ 52) {dl da pl pa : ℝ} (hdl : |dl| ≤ 24) (hpl : |pl| ≤ 24)
    (hda : |da| < 90) (hpa : |pa| < 90) (hp0 : pa ≠ 0)
    (hv : 1 / 2 ^ 19 ≤ Real.cos (da * Real.pi / 180) * Real.cos (pa * Real.pi / 180) * |Real.sin (hourAngle (pl - dl))|) :
    ∃ b, (∀ out, PoleAngleD r L acos dl da pl pa out ↔ out = some b) ∧
      |b - angleAt (place da dl) (basePole (SignType.sign pa)) (place pa pl) * 180 / Real.pi| ≤
        1 / 2 ^ 32 / (Real.cos (da * Real.pi / 180) * Real.cos (pa * Real.pi / 180) * |Real.sin (hourAngle (pl - dl))|) := by
  change 1 / 2 ^ 19 ≤ Real.cos (radians da) * Real.cos (radians pa) * |Real.sin (hourAngle (pl - dl))| at hv
  have hs := sign_real hp0
  have ca := cos_lat_pos hda
  have cb := cos_lat_pos hpa
  have ca1 := Real.cos_le_one (radians da)
  have cb1 := Real.cos_le_one (radians pa)
  obtain ⟨lon, h1, h2, k, h3⟩ := lon_near hr hdl hpl
  have n1 := hL.sin_near h3 (by linarith)
  have n2 := hL.cos_near h3 (by linarith)
  have n3 := Real.abs_sin_sub_sin_le lon (hourAngle (pl - dl) + k * (2 * Real.pi))
  rw [Real.sin_add_int_mul_two_pi] at n1 n3
  rw [Real.cos_add_int_mul_two_pi] at n2
  have v1 : 1 / 2 ^ 19 ≤ |Real.sin (hourAngle (pl - dl))| := by
    refine hv.trans ?_
    refine mul_le_of_le_one_left (abs_nonneg _) (mul_le_one₀ ca1 cb.le cb1)
  have hsin : Real.sin (hourAngle (pl - dl)) ≠ 0 := by
    intro hc
    rw [hc] at v1
    norm_num at v1
  have hy := tLen_pos (b := radians pa) ca.ne' hsin
  have off : ¬(lon = -piD ∨ lon = 0 ∨ lon = piD) := by
    intro hc
    have g1 : |Real.sin lon| ≤ 1 / 2 ^ 52 := by
      have g2 : |Real.sin piD| ≤ 1 / 2 ^ 52 := by
        obtain ⟨b1, b2⟩ := piD_bounds
        have := Real.abs_sin_sub_sin_le piD Real.pi
        rw [Real.sin_pi, sub_zero, abs_sub_comm, abs_of_nonneg (by linarith : 0 ≤ Real.pi - piD)] at this
        linarith
      rcases hc with rfl | rfl | rfl
      · rwa [Real.sin_neg, abs_neg]
      · simp
      · exact g2
    have g3 := abs_sub_abs_le_abs_sub (Real.sin (hourAngle (pl - dl))) (Real.sin lon)
    rw [abs_sub_comm] at g3
    norm_num at v1 g1 h3 n3 g3
    linarith
  obtain ⟨x1, x2, x3⟩ := half_exact (s := (SignType.sign pa : ℝ)) (b := radians pa) hs ca hy
  have x4 := sine_angle (s := (SignType.sign pa : ℝ)) (a := radians da) hs cb hy
  have dP := side_near hr hL hs hpa.le
  have dV := side_near hr hL hs hda.le
  have dC := dest_near hr hL hat (n1.trans (by norm_num)) (n2.trans (by norm_num)) hda.le hpa.le
  obtain ⟨-, bp, -⟩ := radians_near hL hpa.le
  obtain ⟨-, bd, -⟩ := radians_near hL hda.le
  have s1 : |(SignType.sign pa : ℝ)| = 1 := by rcases hs with h | h <;> rw [h] <;> simp
  have q1 := Real.pi_lt_d2
  have q2 := Real.pi_pos
  have bP : |Real.pi / 2 - SignType.sign pa * radians pa| ≤ 4 := (abs_sub _ _).trans (by
    rw [abs_mul, s1, abs_of_pos (by linarith : 0 < Real.pi / 2)]; norm_num at q1; linarith)
  have bV : |Real.pi / 2 - SignType.sign pa * radians da| ≤ 4 := (abs_sub _ _).trans (by
    rw [abs_mul, s1, abs_of_pos (by linarith : 0 < Real.pi / 2)]; norm_num at q1; linarith)
  have bC : |atan2 (tLen (radians da) (radians pa) (hourAngle (pl - dl))) (cDist (radians da) (radians pa) (hourAngle (pl - dl)))| ≤ 4 := by
    obtain ⟨u1, u2⟩ := atan2_upper (x := cDist (radians da) (radians pa) (hourAngle (pl - dl))) hy.le
    rw [abs_of_nonneg u1]
    norm_num at q1
    linarith
  have S0 : 0 < Real.cos (radians pa) * |Real.sin (hourAngle (pl - dl))| / tLen (radians da) (radians pa) (hourAngle (pl - dl)) := by
    positivity
  have hD : Real.cos (radians da) * tLen (radians da) (radians pa) (hourAngle (pl - dl)) *
      √(1 - (SignType.sign pa * tN (radians da) (radians pa) (hourAngle (pl - dl)) /
        tLen (radians da) (radians pa) (hourAngle (pl - dl))) ^ 2) =
      Real.cos (radians da) * Real.cos (radians pa) * |Real.sin (hourAngle (pl - dl))| := by
    rw [x4]
    field_simp
  have hm1 : tLen (radians da) (radians pa) (hourAngle (pl - dl)) ≤ 1 := by
    have := tLen_sq (radians da) (radians pa) (hourAngle (pl - dl))
    nlinarith [sq_nonneg (cDist (radians da) (radians pa) (hourAngle (pl - dl)))]
  rw [← x4] at S0
  rw [angleAt_eq hs ca]
  have t2 : 0 < 1 - (SignType.sign pa * tN (radians da) (radians pa) (hourAngle (pl - dl)) /
      tLen (radians da) (radians pa) (hourAngle (pl - dl))) ^ 2 := Real.sqrt_pos.1 S0
  generalize SignType.sign pa * tN (radians da) (radians pa) (hourAngle (pl - dl)) /
      tLen (radians da) (radians pa) (hourAngle (pl - dl)) = t at *
  obtain ⟨t3, t4⟩ : -1 < t ∧ t < 1 := abs_lt.1 ((sq_lt_one_iff_abs_lt_one t).1 (by linarith))
  have S1 : √(1 - t ^ 2) ≤ 1 := Real.sqrt_le_one.2 (by nlinarith [sq_nonneg t])
  have m0 : 0 < Real.cos (radians da) * tLen (radians da) (radians pa) (hourAngle (pl - dl)) := mul_pos ca hy
  have m1 : Real.cos (radians da) * tLen (radians da) (radians pa) (hourAngle (pl - dl)) ≤ 1 := mul_le_one₀ ca1 hy.le hm1
  have m2 : 1 / 2 ^ 19 ≤ Real.cos (radians da) * tLen (radians da) (radians pa) (hourAngle (pl - dl)) := by
    refine hv.trans ?_
    rw [← hD]
    exact mul_le_of_le_one_right m0.le S1
  have m3 : 7000 / 2 ^ 52 ≤ Real.cos (radians da) * tLen (radians da) (radians pa) (hourAngle (pl - dl)) * (1 - t ^ 2) := by
    have e : 1 - t ^ 2 = √(1 - t ^ 2) * √(1 - t ^ 2) := (Real.mul_self_sqrt t2.le).symm
    rw [e, ← mul_assoc]
    have h4 : (1 / 2 ^ 19 : ℝ) ≤ √(1 - t ^ 2) := by
      refine (hv.trans_eq hD.symm).trans ?_
      exact mul_le_of_le_one_left S0.le m1
    rw [hD]
    calc (7000 / 2 ^ 52 : ℝ) ≤ (1 / 2 ^ 19) * (1 / 2 ^ 19) := by norm_num
      _ ≤ _ := mul_le_mul hv h4 (by norm_num) (by positivity)
  obtain ⟨b, b1, b2⟩ := half_near hr hL hac dP dV dC bP bV bC (by rw [x2, x3]; exact le_trans (by norm_num) m2) t3 t4
    (by rw [x2, x3]; exact x1) (by rw [x2, x3]; exact m3)
  rw [x2, x3, hD] at b2
  refine ⟨b, fun out => ?_, b2⟩
  unfold PoleAngleD
  constructor
  · rintro ⟨l, hl, ho⟩
    rw [h1, Except.ok.injEq] at hl
    rw [ho, hl, if_neg off]
    exact b1
  · intro ho
    exact ⟨lon, (h1 _).2 rfl, by rw [if_neg off, ho]; exact b1.symm⟩

include hr hL in
/-- **C190** The side of 90 degrees, on which the quadrant of the pole depends, is the exact one unless the exact angle is that near
90 degrees. -/
theorem C190_quadrant (hat : ∀ x y : ℝ, 0 ≤ y → (x ≠ 0 ∨ y ≠ 0) → |L.atan2 y x - atan2 y x| ≤ 1 / 2 ^ 51) {acos : ℝ → ℝ}
    (hac : ∀ x, 0 ≤ x → x ≤ 1 → |acos x - Real.arccos x| ≤ 1 / 2 ^ 52) {dl da pl pa : ℝ} (hdl : |dl| ≤ 24) (hpl : |pl| ≤ 24)
    (hda : |da| < 90) (hpa : |pa| < 90) (hp0 : pa ≠ 0)
    (hv : 1 / 2 ^ 19 ≤ Real.cos (da * Real.pi / 180) * Real.cos (pa * Real.pi / 180) * |Real.sin (hourAngle (pl - dl))|)
    (hf : 1 / 2 ^ 32 / (Real.cos (da * Real.pi / 180) * Real.cos (pa * Real.pi / 180) * |Real.sin (hourAngle (pl - dl))|) <
      |angleAt (place da dl) (basePole (SignType.sign pa)) (place pa pl) * 180 / Real.pi - 90|) {b : ℝ}
    (h : PoleAngleD r L acos dl da pl pa (some b)) :
    b < 90 ↔ angleAt (place da dl) (basePole (SignType.sign pa)) (place pa pl) < Real.pi / 2 := by
  obtain ⟨c, c1, c2⟩ := C190_pole_angle hr hL hat hac hdl hpl hda hpa hp0 hv
  obtain rfl : b = c := Option.some.inj ((c1 _).1 h)
  have hp := Real.pi_pos
  have e : angleAt (place da dl) (basePole (SignType.sign pa)) (place pa pl) < Real.pi / 2 ↔
      angleAt (place da dl) (basePole (SignType.sign pa)) (place pa pl) * 180 / Real.pi < 90 := by
    rw [div_lt_iff₀ hp]
    constructor <;> intro _ <;> linarith
  rw [e]
  have c3 := c2.trans_lt hf
  generalize angleAt (place da dl) (basePole (SignType.sign pa)) (place pa pl) * 180 / Real.pi = x at *
  obtain ⟨c4, c5⟩ := abs_lt.1 c3
  rcases abs_cases (x - 90) with ⟨h1, h2⟩ | ⟨h1, h2⟩ <;> constructor <;> intro _ <;> linarith

end Main

/-! ### examples -/

theorem exAtan (r : ℝ → ℝ) (x y : ℝ) : |(havLib r).atan2 y x - atan2 y x| ≤ 1 / 2 ^ 51 := by
  simp [havLib, exLib]

theorem exCond : (1 : ℝ) / 2 ^ 19 ≤ Real.cos (60 * Real.pi / 180) * Real.cos (60 * Real.pi / 180) * |Real.sin (hourAngle (6 - 0))| := by
  have h1 : Real.cos (60 * Real.pi / 180) = 1 / 2 := by
    rw [show 60 * Real.pi / 180 = Real.pi / 3 by ring, Real.cos_pi_div_three]
  have h2 : Real.sin (hourAngle (6 - 0)) = 1 := by
    unfold hourAngle
    rw [show (6 - 0) * Real.pi / 12 = Real.pi / 2 by ring, Real.sin_pi_div_two]
  rw [h1, h2]
  norm_num

/-- Data at midnight, the pole at 6 h, both at latitude 60. -/
example : ∃ b, (∀ out, PoleAngleD toDouble (havLib toDouble) Real.arccos 0 60 6 60 out ↔ out = some b) ∧
    |b - angleAt (place 60 0) (basePole (SignType.sign (60 : ℝ))) (place 60 6) * 180 / Real.pi| ≤ 1 / 2 ^ 32 /
      (Real.cos (60 * Real.pi / 180) * Real.cos (60 * Real.pi / 180) * |Real.sin (hourAngle (6 - 0))|) :=
  C190_pole_angle toDouble_nearest (havLib_ok toDouble_nearest) (fun x y _ _ => exAtan toDouble x y) (fun x _ _ => by simp)
    (by norm_num) (by norm_num) (by norm_num) (by norm_num) (by norm_num) exCond

theorem exAngle : angleAt (place 60 0) (basePole (SignType.sign (60 : ℝ))) (place 60 6) ≤ Real.pi / 3 := by
  have h0 : (SignType.sign (60 : ℝ) : ℝ) = 1 := by rw [sign_pos (by norm_num)]; simp
  have h1 : radians 60 = Real.pi / 3 := by unfold radians; ring
  have h2 : hourAngle (6 - 0) = Real.pi / 2 := by unfold hourAngle; ring
  rw [h0, angleAt_eq (.inl rfl) (by rw [h1, Real.cos_pi_div_three]; norm_num), h1, h2]
  have h3 : Real.pi / 3 = Real.arccos (1 / 2) := by
    rw [← Real.cos_pi_div_three, Real.arccos_cos (by positivity) (by linarith [Real.pi_pos])]
  refine (Real.arccos_le_arccos ?_).trans_eq h3.symm
  have hq : √3 ^ 2 = 3 := Real.sq_sqrt (by norm_num)
  have q0 := Real.sqrt_nonneg 3
  have hN : tN (Real.pi / 3) (Real.pi / 3) (Real.pi / 2) = √3 / 4 := by
    unfold tN
    rw [Real.cos_pi_div_two, Real.cos_pi_div_three, Real.sin_pi_div_three]
    ring
  have hL : tLen (Real.pi / 3) (Real.pi / 3) (Real.pi / 2) ≤ √3 / 2 := by
    unfold tLen
    rw [hN]
    unfold tE
    rw [Real.sin_pi_div_two, Real.cos_pi_div_three]
    refine Real.sqrt_le_iff.2 ⟨by positivity, ?_⟩
    nlinarith
  have hL0 : 0 < tLen (Real.pi / 3) (Real.pi / 3) (Real.pi / 2) :=
    tLen_pos (by rw [Real.cos_pi_div_three]; norm_num) (by rw [Real.sin_pi_div_two]; norm_num)
  rw [hN, le_div_iff₀ hL0]
  linarith

/-- The computed angle is below 90 degrees as the exact one. -/
example (b : ℝ) (h : PoleAngleD toDouble (havLib toDouble) Real.arccos 0 60 6 60 (some b)) : b < 90 := by
  refine (C190_quadrant toDouble_nearest (havLib_ok toDouble_nearest) (fun x y _ _ => exAtan toDouble x y) (fun x _ _ => by simp)
    (by norm_num) (by norm_num) (by norm_num) (by norm_num) (by norm_num) exCond ?_ h).2 ?_
  · have h1 : Real.cos (60 * Real.pi / 180) = 1 / 2 := by
      rw [show 60 * Real.pi / 180 = Real.pi / 3 by ring, Real.cos_pi_div_three]
    have h2 : Real.sin (hourAngle (6 - 0)) = 1 := by
      unfold hourAngle
      rw [show (6 - 0) * Real.pi / 12 = Real.pi / 2 by ring, Real.sin_pi_div_two]
    rw [h1, h2]
    have h3 : angleAt (place 60 0) (basePole (SignType.sign (60 : ℝ))) (place 60 6) * 180 / Real.pi ≤ 60 := by
      rw [div_le_iff₀ Real.pi_pos]
      linarith [exAngle]
    rw [abs_sub_comm]
    refine lt_of_lt_of_le ?_ (le_abs_self _)
    generalize angleAt (place 60 0) (basePole (SignType.sign (60 : ℝ))) (place 60 6) * 180 / Real.pi = x at h3 ⊢
    norm_num
    linarith
  · linarith [exAngle, Real.pi_pos]

end Ocb.Dbl
