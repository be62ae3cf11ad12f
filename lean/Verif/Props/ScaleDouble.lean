import Verif.Model.ScaleDouble
import Verif.Props.RangeDouble

/-!
# C184, C185: the scaling functions in double precision
-/

set_option autoImplicit false

namespace Ocb.Dbl

namespace Nearest

variable {r : ℝ → ℝ} (hr : Nearest r)

include hr

/-- The relative error above the subnormal numbers. -/
theorem rel {x : ℝ} (h : 2 ^ (-1022 : ℤ) ≤ |x|) : |r x - x| ≤ 2 ^ (-53 : ℤ) * |x| := by
  have hx : 0 < |x| := lt_of_lt_of_le (by positivity) h
  have h1 : ((2 : ℕ) : ℝ) ^ Int.log 2 |x| ≤ |x| := Int.zpow_log_le_self (by norm_num) hx
  have h2 : |x| < ((2 : ℕ) : ℝ) ^ (Int.log 2 |x| + 1) := Int.lt_zpow_succ_log_self (by norm_num) _
  have h3 : -1022 ≤ Int.log 2 |x| := by
    rw [← Int.zpow_le_iff_le_log (by norm_num) hx]; exact_mod_cast h
  have h4 := hr.err (x := x) (e := Int.log 2 |x| - 52) (by omega)
    (by rw [show Int.log 2 |x| - 52 + 53 = Int.log 2 |x| + 1 by ring]; exact_mod_cast h2.le)
  refine h4.trans ?_
  have h5 : (2 : ℝ) ^ (Int.log 2 |x| - 52) = 2 ^ Int.log 2 |x| * 2 ^ (-52 : ℤ) := by rw [← two_add]; rfl
  rw [h5, show (2 : ℝ) ^ (-53 : ℤ) = 2 ^ (-52 : ℤ) / 2 by norm_num]
  have h6 : (2 : ℝ) ^ Int.log 2 |x| ≤ |x| := by exact_mod_cast h1
  have := two_pos (-52)
  nlinarith

/-- The error of any number: relative, or half the smallest double. -/
theorem relAbs (x : ℝ) : |r x - x| ≤ 2 ^ (-53 : ℤ) * |x| + 2 ^ (-1075 : ℤ) := by
  rcases le_or_gt ((2 : ℝ) ^ (-1022 : ℤ)) |x| with h | h
  · exact (hr.rel h).trans (le_add_of_nonneg_right (two_pos _).le)
  · have := hr.err (x := x) (e := -1074) le_rfl (h.le.trans (two_le (by norm_num)))
    refine this.trans ?_
    have h2 : (2 : ℝ) ^ (-1074 : ℤ) / 2 = 2 ^ (-1075 : ℤ) := by
      rw [show (-1074 : ℤ) = -1075 + 1 by norm_num, two_add]; norm_num
    rw [h2]
    exact le_add_of_nonneg_left (mul_nonneg (two_pos _).le (abs_nonneg x))

/-- A double nearer than half a unit of the grid is the result. -/
theorem near {x : ℝ} {e k : ℤ} (he : -1074 ≤ e) (h0 : 2 ^ 52 < k) (h1 : k ≤ 2 ^ 53) (h : |k * 2 ^ e - x| < 2 ^ e / 2) :
    r x = k * 2 ^ e := by
  have hp := two_pos e
  have hd : IsDouble ((k : ℝ) * 2 ^ e) := by
    refine isDouble_grid he rfl ?_
    rw [abs_mul, abs_of_pos hp, add_comm, two_add]
    apply mul_le_mul_of_nonneg_right _ hp.le
    have : |(k : ℝ)| = k := abs_of_pos (by exact_mod_cast (by omega : (0 : ℤ) < k))
    rw [this]
    exact_mod_cast h1
  have h2 := hr.best x _ hd
  have h3 : |r x - k * 2 ^ e| < 2 ^ e := by
    have : r x - k * 2 ^ e = (r x - x) - (k * 2 ^ e - x) := by ring
    rw [this]
    calc _ ≤ |r x - x| + |k * 2 ^ e - x| := abs_sub _ _
      _ < _ := by linarith
  have h4 : (2 : ℝ) ^ (e + 52) ≤ |r x| := by
    have h5 := (abs_lt.1 h3).1
    have h6 : ((2 : ℝ) ^ 52 + 1) * 2 ^ e ≤ k * 2 ^ e := by
      apply mul_le_mul_of_nonneg_right _ hp.le
      exact_mod_cast (by omega : (2 : ℤ) ^ 52 + 1 ≤ k)
    have h7 : (2 : ℝ) ^ (e + 52) = 2 ^ 52 * 2 ^ e := by rw [add_comm, two_add]; norm_num
    rw [h7]
    refine le_trans ?_ (le_abs_self _)
    linarith
  obtain ⟨j, hj⟩ := (hr.mem x).coarse h4
  rw [hj] at h3 ⊢
  rw [grid_eq h3]

theorem zero : r 0 = 0 := hr.keep isDouble_zero

theorem nonneg {x : ℝ} (h : 0 ≤ x) : 0 ≤ r x := hr.dbl_le isDouble_zero h

theorem nonpos {x : ℝ} (h : x ≤ 0) : r x ≤ 0 := hr.le_dbl isDouble_zero h

end Nearest

/-- C184: `normal_evar` in double precision is the exact value up to two roundings, for all numbers; the last two terms are
for results among the subnormal numbers. -/
theorem C184_evar {r : ℝ → ℝ} (hr : Nearest r) (e u : ℝ) {s : ℝ} (hs : s ≠ 0) :
    |normalEvarD r e u s - e * u / s| ≤
      (2 ^ (-52 : ℤ) + 2 ^ (-106 : ℤ)) * |e * u / s| + 2 ^ (-1074 : ℤ) / |s| + 2 ^ (-1075 : ℤ) := by
  have s0 : 0 < |s| := abs_pos.2 hs
  have h1 := hr.relAbs (e * u)
  have h2 := hr.relAbs (r (e * u) / s)
  have h3 : |r (e * u) / s - e * u / s| ≤ 2 ^ (-53 : ℤ) * |e * u / s| + 2 ^ (-1075 : ℤ) / |s| := by
    rw [← sub_div, abs_div, abs_div, ← mul_div_assoc, ← add_div]
    exact div_le_div_of_nonneg_right h1 s0.le
  have h4 : |r (e * u) / s| ≤ |e * u / s| + (2 ^ (-53 : ℤ) * |e * u / s| + 2 ^ (-1075 : ℤ) / |s|) := by
    have := abs_sub_abs_le_abs_sub (r (e * u) / s) (e * u / s)
    linarith
  have h5 : |normalEvarD r e u s - e * u / s| ≤ |r (r (e * u) / s) - r (e * u) / s| + |r (e * u) / s - e * u / s| := by
    have := abs_sub_le (r (r (e * u) / s)) (r (e * u) / s) (e * u / s)
    exact this
  have hη : (0 : ℝ) ≤ 2 ^ (-1075 : ℤ) / |s| := div_nonneg (two_pos _).le s0.le
  have e1 : (2 : ℝ) ^ (-1074 : ℤ) / |s| = 2 * (2 ^ (-1075 : ℤ) / |s|) := by
    rw [show (-1074 : ℤ) = 1 + -1075 by norm_num, two_add]; norm_num; ring
  have e2 : (2 : ℝ) ^ (-52 : ℤ) = 2 * 2 ^ (-53 : ℤ) := by norm_num
  have e3 : (2 : ℝ) ^ (-106 : ℤ) = 2 ^ (-53 : ℤ) * 2 ^ (-53 : ℤ) := by norm_num
  rw [e1, e2, e3]
  have hε : (2 : ℝ) ^ (-53 : ℤ) ≤ 1 := by norm_num
  have hε0 := two_pos (-53)
  generalize (2 : ℝ) ^ (-53 : ℤ) = ε at *
  generalize (2 : ℝ) ^ (-1075 : ℤ) / |s| = η at *
  generalize |e * u / s| = x at *
  have := mul_le_mul_of_nonneg_left h4 hε0.le
  nlinarith

/-- C184: the curl of such a variable, if the quotient of the radii and the result are far from the subnormal numbers. -/
theorem C184_curl {r : ℝ → ℝ} (hr : Nearest r) {c u s : ℝ} (hq : 2 ^ (-500 : ℤ) ≤ |u / s|)
    (hc : c = 0 ∨ 2 ^ (-1000 : ℤ) ≤ |c * (u / s) ^ 2|) :
    |normalCurlEvarD r c u s - c * (u / s) ^ 2| ≤ 5 * 2 ^ (-53 : ℤ) * |c * (u / s) ^ 2| := by
  rcases hc with rfl | hc
  · unfold normalCurlEvarD; simp [hr.zero]
  unfold normalCurlEvarD
  generalize u / s = t at *
  have ht : 0 < |t| := lt_of_lt_of_le (two_pos _) hq
  have h1 := hr.rel (x := t) ((two_le (by norm_num)).trans hq)
  generalize r t = q at *
  have q1 : |q| ≤ (1 + 2 ^ (-53 : ℤ)) * |t| := by linarith [abs_sub_abs_le_abs_sub q t]
  have q0 : (1 - 2 ^ (-53 : ℤ)) * |t| ≤ |q| := by
    have := abs_sub_abs_le_abs_sub t q
    rw [abs_sub_comm] at this
    linarith
  have h2 : |q ^ 2 - t ^ 2| ≤ 2 ^ (-53 : ℤ) * (2 + 2 ^ (-53 : ℤ)) * |t ^ 2| := by
    have : q ^ 2 - t ^ 2 = (q - t) * (q + t) := by ring
    rw [this, abs_mul, abs_pow]
    have h3 : |q + t| ≤ (2 + 2 ^ (-53 : ℤ)) * |t| := by linarith [abs_add_le q t]
    calc _ ≤ (2 ^ (-53 : ℤ) * |t|) * ((2 + 2 ^ (-53 : ℤ)) * |t|) :=
          mul_le_mul h1 h3 (abs_nonneg _) (mul_nonneg (two_pos _).le ht.le)
      _ = _ := by ring
  have ht2 : (2 : ℝ) ^ (-1000 : ℤ) ≤ t ^ 2 := by
    rw [← sq_abs, show (-1000 : ℤ) = -500 + -500 by norm_num, two_add, sq]
    exact mul_le_mul hq hq (two_pos _).le ht.le
  have hT : |t ^ 2| = t ^ 2 := abs_of_nonneg (sq_nonneg t)
  have ε1 : (2 : ℝ) ^ (-53 : ℤ) ≤ 1 / 1000 := by norm_num
  have ε0 := two_pos (-53)
  have e22 : (2 : ℝ) ^ (-1000 : ℤ) = 2 ^ (-1022 : ℤ) * 4194304 := by
    rw [show (-1000 : ℤ) = -1022 + 22 by norm_num, two_add]; norm_num
  have p0 := two_pos (-1022)
  rw [hT] at h2
  have h2' := abs_le.1 h2
  have hQ : (2 : ℝ) ^ (-1022 : ℤ) ≤ |q ^ 2| := by
    rw [abs_of_nonneg (sq_nonneg q)]
    have hh : (2 : ℝ) ^ (-53 : ℤ) * (2 + 2 ^ (-53 : ℤ)) ≤ 1 / 2 := by norm_num
    have := mul_le_mul_of_nonneg_right hh (sq_nonneg t)
    have k1 := h2'.1
    generalize (2 : ℝ) ^ (-53 : ℤ) * (2 + 2 ^ (-53 : ℤ)) * t ^ 2 = y at *
    generalize (2 : ℝ) ^ (-1000 : ℤ) = y2 at *
    generalize (2 : ℝ) ^ (-1022 : ℤ) = y3 at *
    linarith
  have h3 := hr.rel hQ
  rw [abs_of_nonneg (sq_nonneg q)] at h3
  generalize r (q ^ 2) = w at *
  have h3' := abs_le.1 h3
  have T0 : 0 < t ^ 2 := lt_of_lt_of_le (two_pos _) ht2
  generalize t ^ 2 = T at *
  generalize q ^ 2 = Q at *
  have hrel := fun x => hr.rel (x := x)
  generalize (2 : ℝ) ^ (-53 : ℤ) = ε at *
  have hw : |w - T| ≤ (7 / 2) * ε * T := by
    rw [abs_le]
    obtain ⟨a1, a2⟩ := h2'
    obtain ⟨b1, b2⟩ := h3'
    have k1 : ε * (ε * T) ≤ 1 / 1000 * (ε * T) := mul_le_mul_of_nonneg_right ε1 (mul_pos ε0 T0).le
    constructor <;> nlinarith [mul_pos ε0 T0]
  have h4 : |c * w - c * T| ≤ (7 / 2) * ε * |c * T| := by
    rw [← mul_sub, abs_mul, abs_mul, abs_of_pos T0]
    calc _ ≤ |c| * ((7 / 2) * ε * T) := mul_le_mul_of_nonneg_left hw (abs_nonneg c)
      _ = _ := by ring
  have hcT : 0 < |c * T| := lt_of_lt_of_le (two_pos _) hc
  have h5 : |c * T| - (7 / 2) * ε * |c * T| ≤ |c * w| := by
    have := abs_sub_abs_le_abs_sub (c * T) (c * w)
    rw [abs_sub_comm] at this
    linarith
  have h6 : |c * w| ≤ |c * T| + (7 / 2) * ε * |c * T| := by
    have := abs_sub_abs_le_abs_sub (c * w) (c * T)
    linarith
  have hh : 7 / 2 * ε * |c * T| ≤ 1 / 2 * |c * T| := mul_le_mul_of_nonneg_right (by linarith) hcT.le
  have h7 := hrel (c * w) (by linarith)
  have h9 : ε * |c * w| ≤ ε * (3 / 2 * |c * T|) := mul_le_mul_of_nonneg_left (by linarith) ε0.le
  have h8 := abs_sub_le (r (c * w)) (c * w) (c * T)
  have h10 : 7 / 2 * ε * |c * T| + ε * (3 / 2 * |c * T|) = 5 * ε * |c * T| := by ring
  linarith

/-- C184: the sign is that of the exact value (or zero). -/
theorem C184_sign {r : ℝ → ℝ} (hr : Nearest r) (e u s : ℝ) :
    (0 ≤ e → 0 ≤ u → 0 ≤ s → 0 ≤ normalEvarD r e u s) ∧ (e ≤ 0 → 0 ≤ u → 0 ≤ s → normalEvarD r e u s ≤ 0) ∧
      (0 ≤ e → 0 ≤ normalCurlEvarD r e u s) ∧ (e ≤ 0 → normalCurlEvarD r e u s ≤ 0) := by
  have hq : 0 ≤ r (r (u / s) ^ 2) := hr.nonneg (sq_nonneg _)
  exact ⟨fun h1 h2 h3 => hr.nonneg (div_nonneg (hr.nonneg (mul_nonneg h1 h2)) h3),
    fun h1 h2 h3 => hr.nonpos (div_nonpos_of_nonpos_of_nonneg (hr.nonpos (mul_nonpos_of_nonpos_of_nonneg h1 h2)) h3),
    fun h1 => hr.nonneg (mul_nonneg h1 hq), fun h1 => hr.nonpos (mul_nonpos_of_nonpos_of_nonneg h1 hq)⟩

/-- C184: larger values are not scaled to smaller ones. -/
theorem C184_mono {r : ℝ → ℝ} (hr : Nearest r) {e e' u s : ℝ} (hu : 0 ≤ u) (hs : 0 ≤ s) (h : e ≤ e') :
    normalEvarD r e u s ≤ normalEvarD r e' u s ∧ normalCurlEvarD r e u s ≤ normalCurlEvarD r e' u s :=
  ⟨hr.mono (div_le_div_of_nonneg_right (hr.mono (mul_le_mul_of_nonneg_right h hu)) hs),
    hr.mono (mul_le_mul_of_nonneg_right h (hr.nonneg (sq_nonneg _)))⟩

/-- Not empty: the vorticity and the radii of a typical record. -/
example : ((2 : ℝ) ^ (-500 : ℤ) ≤ |(14.09 : ℝ) / 16|) ∧ (2 : ℝ) ^ (-1000 : ℤ) ≤ |(0.0005 : ℝ) * (14.09 / 16) ^ 2| := by
  constructor
  · exact (two_le (show (-500 : ℤ) ≤ -10 by norm_num)).trans (by rw [abs_of_pos (by norm_num)]; norm_num)
  · exact (two_le (show (-1000 : ℤ) ≤ -20 by norm_num)).trans (by rw [abs_of_pos (by norm_num)]; norm_num)

/-- C185 for the curl: equal radii leave the value as it is. -/
theorem C185_curl_same {r : ℝ → ℝ} (hr : Nearest r) {c u : ℝ} (dc : IsDouble c) (hu : u ≠ 0) : normalCurlEvarD r c u u = c := by
  have d1 : IsDouble 1 := by exact_mod_cast isDouble_nat (n := 1) (by norm_num)
  unfold normalCurlEvarD
  rw [div_self hu, hr.keep d1, one_pow, hr.keep d1, mul_one, hr.keep dc]

/-- C185 where it holds: a radius that is a power of two, if nothing underflows.  Missing: other radii. -/
theorem C185_same_partial {r : ℝ → ℝ} (hr : Nearest r) {e : ℝ} (de : IsDouble e) {n : ℤ} (hn : 0 ≤ n) :
    normalEvarD r e (2 ^ n) (2 ^ n) = e := by
  obtain ⟨m, k, hm, hk, rfl⟩ := de
  unfold normalEvarD
  have d : IsDouble ((m : ℝ) * 2 ^ k * 2 ^ n) := ⟨m, k + n, hm, by omega, by rw [two_add]; ring⟩
  rw [hr.keep d, mul_div_assoc, div_self (two_pos n).ne', mul_one, hr.keep ⟨m, k, hm, hk, rfl⟩]

/-- C185 is false for other radii: a value scaled from a radius of 11 degrees to the same radius changes. -/
theorem C185_same_refuted {r : ℝ → ℝ} (hr : Nearest r) :
    ∃ e, IsDouble e ∧ normalEvarD r e 11 11 ≠ e := by
  refine ⟨6755399441055746 * 2 ^ (-52 : ℤ), ⟨6755399441055746, -52, by norm_num, by norm_num, by norm_num⟩, ?_⟩
  unfold normalEvarD
  have h1 := hr.near (x := 6755399441055746 * 2 ^ (-52 : ℤ) * 11) (e := -48) (k := 4644337115725825) (by norm_num) (by norm_num)
    (by norm_num) (by norm_num [abs_lt])
  have h2 := hr.near (x := ((4644337115725825 : ℤ) : ℝ) * 2 ^ (-48 : ℤ) / 11) (e := -52) (k := 6755399441055745) (by norm_num)
    (by norm_num) (by norm_num) (by norm_num [abs_lt])
  rw [h1, h2]
  norm_num

/-- C185: scaling to another radius and back is exact up to four roundings. -/
theorem C185_back {r : ℝ → ℝ} (hr : Nearest r) {e u s : ℝ} (hu : u ≠ 0) (hs : s ≠ 0) (h1 : 2 ^ (-1000 : ℤ) ≤ |e|)
    (h2 : 2 ^ (-1000 : ℤ) ≤ |e * u|) (h3 : 2 ^ (-1000 : ℤ) ≤ |e * u / s|) :
    |normalEvarD r (normalEvarD r e u s) s u - e| ≤ 5 * 2 ^ (-53 : ℤ) * |e| := by
  have ε1 : (2 : ℝ) ^ (-53 : ℤ) ≤ 1 / 1000 := by norm_num
  have ε0 := two_pos (-53)
  have e22 : (2 : ℝ) ^ (-1000 : ℤ) = 2 ^ (-1022 : ℤ) * 4194304 := by
    rw [show (-1000 : ℤ) = -1022 + 22 by norm_num, two_add]; norm_num
  have p0 := two_pos (-1022)
  -- one rounding of a number with a known relative error
  have step : ∀ (x y δ : ℝ), 2 ^ (-1000 : ℤ) ≤ |y| → 0 ≤ δ → δ ≤ 1 / 2 → |x - y| ≤ δ * |y| →
      |r x - y| ≤ (δ + (1 + δ) * 2 ^ (-53 : ℤ)) * |y| := by
    intro x y δ hy d0 d1 hxy
    have y0 : 0 < |y| := lt_of_lt_of_le (two_pos _) hy
    have a1 : |x| ≤ (1 + δ) * |y| := by linarith [abs_sub_abs_le_abs_sub x y]
    have a2 : (1 - δ) * |y| ≤ |x| := by
      have := abs_sub_abs_le_abs_sub y x
      rw [abs_sub_comm] at this
      linarith
    have a3 := hr.rel (x := x) (by nlinarith)
    have a4 := abs_sub_le (r x) x y
    nlinarith
  have s1 := step (e * u) (e * u) 0 h2 le_rfl (by norm_num) (by simp)
  have s2 := step (r (e * u) / s) (e * u / s) (2 ^ (-53 : ℤ)) h3 ε0.le (by linarith) (by
    rw [← sub_div, abs_div, abs_div, ← mul_div_assoc]
    apply div_le_div_of_nonneg_right _ (abs_nonneg s)
    simpa using s1)
  have k3 : e * u / s * s = e * u := by field_simp
  have s3 := step (normalEvarD r e u s * s) (e * u) (2 ^ (-53 : ℤ) + (1 + 2 ^ (-53 : ℤ)) * 2 ^ (-53 : ℤ)) h2 (by positivity)
    (by norm_num) (by
    have : normalEvarD r e u s * s - e * u = (normalEvarD r e u s - e * u / s) * s := by rw [sub_mul, k3]
    rw [this, abs_mul]
    refine (mul_le_mul_of_nonneg_right s2 (abs_nonneg s)).trans_eq ?_
    rw [mul_assoc, ← abs_mul (e * u / s), k3])
  have k4 : e * u / u = e := by field_simp
  have s4 := step (r (normalEvarD r e u s * s) / u) e (2 ^ (-53 : ℤ) + (1 + 2 ^ (-53 : ℤ)) * 2 ^ (-53 : ℤ) +
    (1 + (2 ^ (-53 : ℤ) + (1 + 2 ^ (-53 : ℤ)) * 2 ^ (-53 : ℤ))) * 2 ^ (-53 : ℤ)) h1 (by positivity) (by norm_num) (by
    have : r (normalEvarD r e u s * s) / u - e = (r (normalEvarD r e u s * s) - e * u) / u := by rw [sub_div, k4]
    rw [this, abs_div]
    refine (div_le_div_of_nonneg_right s3 (abs_nonneg u)).trans_eq ?_
    rw [mul_div_assoc, ← abs_div (e * u), k4])
  refine s4.trans (mul_le_mul_of_nonneg_right ?_ (abs_nonneg e))
  norm_num

/-- C185 is false for scaling to another radius and back: one degree of 49 degrees. -/
theorem C185_back_refuted {r : ℝ → ℝ} (hr : Nearest r) : normalEvarD r (normalEvarD r 1 1 49) 49 1 ≠ 1 := by
  have d1 : IsDouble 1 := by exact_mod_cast isDouble_nat (n := 1) (by norm_num)
  unfold normalEvarD
  rw [one_mul, hr.keep d1]
  have h1 := hr.near (x := 1 / 49) (e := -58) (k := 5882252574524729) (by norm_num) (by norm_num) (by norm_num)
    (by norm_num [abs_lt])
  have h2 := hr.near (x := ((5882252574524729 : ℤ) : ℝ) * 2 ^ (-58 : ℤ) * 49) (e := -53) (k := 9007199254740991) (by norm_num)
    (by norm_num) (by norm_num) (by norm_num [abs_lt])
  rw [h1, h2, div_one, hr.keep ⟨9007199254740991, -53, by norm_num, by norm_num, by norm_num⟩]
  norm_num

end Ocb.Dbl
