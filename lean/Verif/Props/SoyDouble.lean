import Verif.Props.ScaleDouble
import Verif.Props.TimeText

/-!
# The seconds of the year and of the day in double precision
-/

set_option autoImplicit false

namespace Ocb.Dbl

open Ocb.Text (yearSoy addSod stamp maxStamp)

/-- The floor of a rounded quotient of a double by a whole number is the floor of the quotient. -/
theorem floor_div {r : ℝ → ℝ} (hr : Nearest r) {x : ℝ} (dx : IsDouble x) (h0 : 0 ≤ x) {y : ℕ} (hy : 0 < y)
    (hxy : x + y ≤ 2 ^ 52) : ⌊r (x / y)⌋ = ⌊x / y⌋ := by
  have hy' : (0 : ℝ) < y := by exact_mod_cast hy
  have hy1 : (1 : ℝ) ≤ y := by exact_mod_cast hy
  set q := ⌊x / y⌋ with hq
  have q0 : 0 ≤ q := Int.floor_nonneg.2 (by positivity)
  have q1 : (q : ℝ) ≤ x / y := Int.floor_le _
  have q2 : x / y < q + 1 := Int.lt_floor_add_one _
  have qs : (q : ℝ) * y ≤ x := by rwa [le_div_iff₀ hy'] at q1
  have qR : (0 : ℝ) ≤ q := by exact_mod_cast q0
  have hqb : (q : ℝ) + 1 ≤ 2 ^ 52 := by nlinarith
  have hqb' : q + 1 ≤ 2 ^ 52 := by exact_mod_cast hqb
  have dq : IsDouble q := isDouble_int (by rw [abs_of_nonneg q0]; omega)
  have dk : IsDouble ((q + 1 : ℤ) : ℝ) := isDouble_int (by rw [abs_of_nonneg (by omega)]; omega)
  rw [Int.floor_eq_iff]
  refine ⟨hr.dbl_le dq q1, ?_⟩
  have hle : r (x / y) ≤ ((q + 1 : ℤ) : ℝ) := hr.le_dbl dk (by push_cast; exact q2.le)
  by_contra hc
  push Not at hc
  have heq : r (x / y) = (q : ℝ) + 1 := le_antisymm (by push_cast at hle; exact hle) hc
  -- the exponents of the quotient and of the divisor
  set b := Int.clog 2 ((q : ℝ) + 1) - 1 with hb
  have k0 : (0 : ℝ) < q + 1 := by positivity
  have b1 : (2 : ℝ) ^ b < q + 1 := by
    have := Int.zpow_pred_clog_lt_self (b := 2) (by norm_num) k0
    push_cast at this
    exact this
  have b2 : (q : ℝ) + 1 ≤ 2 ^ (b + 1) := by
    have := Int.self_le_zpow_clog (b := 2) (by norm_num) ((q : ℝ) + 1)
    push_cast at this
    rw [hb, sub_add_cancel]
    exact this
  set c := Int.log 2 (y : ℝ) with hcdef
  have c1 : (2 : ℝ) ^ c ≤ y := by
    have := Int.zpow_log_le_self (b := 2) (by norm_num) hy'
    push_cast at this
    exact this
  have c2 : (y : ℝ) < 2 ^ (c + 1) := by
    have := Int.lt_zpow_succ_log_self (b := 2) (by norm_num) (y : ℝ)
    push_cast at this
    exact this
  have lt52 : ∀ f : ℤ, (2 : ℝ) ^ f < 2 ^ 52 → f < 52 := by
    intro f hf
    have : (2 : ℝ) ^ f < 2 ^ (52 : ℤ) := by exact_mod_cast hf
    exact (zpow_lt_zpow_iff_right₀ (by norm_num)).1 this
  have hb52 : b < 52 := lt52 b (by linarith)
  have hbm : -1 ≤ b := by
    by_contra h
    have : (2 : ℝ) ^ (b + 1) ≤ 2 ^ (-1 : ℤ) := two_le (by omega)
    norm_num at this
    linarith
  have hcm : 0 ≤ c := by
    by_contra h
    have : (2 : ℝ) ^ (c + 1) ≤ 2 ^ (0 : ℤ) := two_le (by omega)
    rw [zpow_zero] at this
    linarith
  have db : IsDouble (2 ^ b) := isDouble_two (by omega)
  have prod : (2 : ℝ) ^ (b + c) = 2 ^ b * 2 ^ c := two_add b c
  rcases lt_or_ge x (2 ^ (b + c)) with hx | hx
  · -- the quotient stays below the power of two under `q + 1`
    have : x / y ≤ 2 ^ b := by
      rw [div_le_iff₀ hy']
      have := mul_le_mul_of_nonneg_left c1 (two_pos b).le
      linarith
    have := hr.le_dbl db this
    linarith
  · -- `x` and `(q + 1) y` lie on a common grid
    have hbc : b + c < 52 := by
      apply lt52
      linarith
    obtain ⟨m, hm⟩ := dx.coarse (e := b + c - 52) (by rw [abs_of_nonneg h0, sub_add_cancel]; exact hx)
    obtain ⟨n, hn⟩ := regrid (e := b + c - 52) (f := 0) (by omega) ((q + 1) * y)
    rw [zpow_zero, mul_one] at hn
    push_cast at hn
    have hxl : x < (q + 1) * y := by rwa [div_lt_iff₀ hy'] at q2
    have hu := two_pos (b + c - 52)
    have gap : x + 2 ^ (b + c - 52) ≤ (q + 1) * y := by
      rw [hn, hm] at hxl ⊢
      have h1 := lt_of_mul_lt_mul_right hxl hu.le
      have h2 : m < n := by exact_mod_cast h1
      have h3 : ((m + 1 : ℤ) : ℝ) ≤ n := Int.cast_le.2 h2
      rw [Int.cast_add, Int.cast_one] at h3
      nlinarith
    obtain ⟨j, hj⟩ := regrid (e := b - 52) (f := 0) (by omega) (q + 1)
    rw [zpow_zero, mul_one] at hj
    push_cast at hj
    have hv := two_pos (b - 52)
    have dz : IsDouble ((q : ℝ) + 1 - 2 ^ (b - 52)) := by
      refine isDouble_grid (e := b - 52) (k := j - 1) (by omega) (by rw [hj]; push_cast; ring) ?_
      have : b - 52 + 53 = b + 1 := by ring
      rw [this]
      have : (2 : ℝ) ^ (b - 52) ≤ 2 ^ b := two_le (by omega)
      rw [abs_of_nonneg (by linarith)]
      linarith
    have best := hr.best (x / y) _ dz
    rw [heq, abs_of_pos (by linarith)] at best
    have e1 : (2 : ℝ) ^ (b + c - 52) = 2 ^ (b - 52) * 2 ^ c := by rw [← two_add]; congr 1; ring
    have e2 : (2 : ℝ) ^ (c + 1) = 2 ^ c * 2 := by rw [two_add, zpow_one]
    -- the quotient is more than half a unit below `q + 1`
    have far : x / y < q + 1 - 2 ^ (b - 52) / 2 := by
      rw [div_lt_iff₀ hy']
      have : (2 : ℝ) ^ (b - 52) * y < 2 ^ (b - 52) * (2 ^ c * 2) := mul_lt_mul_of_pos_left (e2 ▸ c2) hv
      nlinarith
    rcases abs_cases ((q : ℝ) + 1 - 2 ^ (b - 52) - x / y) with h | h <;> linarith [h.1]

/-- C149. The seconds of a year are converted without any rounding error: in double precision `year_soy_to_datetime` does
what it does in exact arithmetic. -/
theorem C149_exact {r : ℝ → ℝ} (hr : Nearest r) (y : ℤ) {soy : ℝ} (ds : IsDouble soy) (h0 : 0 ≤ soy) (h1 : soy ≤ 2 ^ 51) :
    yearSoyD r y soy = yearSoy y soy := by
  have part : ∀ (x : ℝ) (n : ℕ), IsDouble x → 0 ≤ x → x ≤ 2 ^ 51 → 0 < n → n ≤ 86400 →
      ⌊r (x / n)⌋ = ⌊x / n⌋ ∧ r (⌊x / n⌋ * n) = ⌊x / n⌋ * n ∧ IsDouble (x - ⌊x / n⌋ * n) ∧ 0 ≤ x - ⌊x / n⌋ * n ∧
        x - ⌊x / n⌋ * n ≤ x ∧ 0 ≤ ⌊x / n⌋ := by
    intro x n dx x0 x1 n0 n1
    have n0' : (0 : ℝ) < n := by exact_mod_cast n0
    have n1' : (n : ℝ) ≤ 86400 := by exact_mod_cast n1
    have q0 : 0 ≤ ⌊x / n⌋ := Int.floor_nonneg.2 (by positivity)
    have qs : (⌊x / n⌋ : ℝ) * n ≤ x := by
      have := Int.floor_le (x / n)
      rwa [le_div_iff₀ n0'] at this
    have q0' : (0 : ℝ) ≤ ⌊x / n⌋ * n := mul_nonneg (by exact_mod_cast q0) n0'.le
    have di : IsDouble ((⌊x / n⌋ : ℝ) * n) := by
      have h2 : ((⌊x / n⌋ * n : ℤ) : ℝ) ≤ ((2 ^ 53 : ℤ) : ℝ) := by
        push_cast
        linarith
      have := isDouble_int (n := ⌊x / n⌋ * n) (by
        rw [abs_of_nonneg (by positivity)]
        exact Int.cast_le.1 h2)
      push_cast at this
      exact this
    refine ⟨floor_div hr dx x0 n0 (by linarith), hr.keep di, ?_, by linarith, by linarith, q0⟩
    rw [sub_eq_add_neg]
    refine dx.add_grid (E := 0) (n := -(⌊x / n⌋ * n)) (by norm_num) ?_ (by push_cast; ring) ?_
    · rw [abs_of_nonneg x0]; norm_num; linarith
    · rw [abs_of_nonneg x0, abs_of_nonneg (by linarith)]; linarith
  obtain ⟨a1, a2, a3, a4, a5, a6⟩ := part soy 86400 ds h0 h1 (by norm_num) (by norm_num)
  push_cast at a1 a2 a3 a4 a5 a6
  obtain ⟨b1, b2, b3, b4, b5, -⟩ := part _ 3600 a3 a4 (a5.trans h1) (by norm_num) (by norm_num)
  push_cast at b1 b2 b3 b4 b5
  obtain ⟨c1, c2, c3, c4, c5, -⟩ := part _ 60 b3 b4 (b5.trans (a5.trans h1)) (by norm_num) (by norm_num)
  push_cast at c1 c2 c3 c4 c5
  have last : ⌊r ((⌊soy / 86400⌋ : ℝ) + 1)⌋ = ⌊soy / 86400⌋ + 1 := by
    have hu : ⌊soy / 86400⌋ ≤ 2 ^ 51 := by
      have := Int.floor_le (soy / 86400)
      have h : (⌊soy / 86400⌋ : ℝ) ≤ ((2 ^ 51 : ℤ) : ℝ) := by push_cast; linarith
      exact Int.cast_le.1 h
    have := hr.keep (isDouble_int (n := ⌊soy / 86400⌋ + 1) (by rw [abs_of_nonneg (by omega)]; omega))
    push_cast at this
    rw [this, Int.floor_add_one, Int.floor_intCast]
  unfold yearSoyD yearSoy
  simp only [a1, a2, hr.keep a3, b1, b2, hr.keep b3, c1, c2, hr.keep c3, last]

/-- Noon of 2 January, less half a second, in double precision. -/
example : yearSoyD toDouble 2010 (129600 - 1 / 2) = yearSoy 2010 (129600 - 1 / 2) :=
  C149_exact toDouble_nearest 2010 ⟨259199, -1, by norm_num, by norm_num, by norm_num⟩ (by norm_num) (by norm_num)

/-- C150. The seconds of the day are added and rounded up to a microsecond, but for `2 ^ -33` microseconds.  Missing: that
the rounding is never downwards, see `C150_never_less_refuted`. -/
theorem C150_close_partial {r : ℝ → ℝ} (hr : Nearest r) {t t' : ℤ} {sod : ℝ} (h0 : 0 ≤ sod)
    (h : addSodD r t sod = .ok t') :
    (t : ℝ) + sod * 1000000 - 2 ^ (-33 : ℤ) ≤ t' ∧ (t' : ℝ) < t + sod * 1000000 + 1 + 2 ^ (-33 : ℤ) := by
  unfold addSodD at h
  simp only [if_pos h0] at h
  have f0 := Int.floor_le sod
  have f1 := Int.lt_floor_add_one sod
  have hp := two_pos (-33)
  generalize ⌊sod⌋ = k at *
  split_ifs at h with h1 h2 h3
  · obtain rfl : t + k * 1000000 + ⌈r ((sod - k) * 1000000)⌉ = t' := by injection h
    have e := abs_le.1 (hr.err (x := (sod - k) * 1000000) (e := -33) (by norm_num) (by
      rw [abs_of_nonneg (by linarith)]; norm_num; linarith))
    have c0 := Int.le_ceil (r ((sod - k) * 1000000))
    have c1 := Int.ceil_lt_add_one (r ((sod - k) * 1000000))
    push_cast
    generalize r ((sod - k) * 1000000) = z at *
    generalize (2 : ℝ) ^ (-33 : ℤ) = u at *
    constructor <;> linarith
  · obtain rfl : t + k * 1000000 = t' := by injection h
    have : sod = k := by linarith
    push_cast
    constructor <;> linarith

/-- C150, refuted: the seconds of the day can lose a fraction of a microsecond.  One double, for every rule for ties. -/
theorem C150_never_less_refuted : ∃ sod, IsDouble sod ∧ 0 ≤ sod ∧ sod < 1 ∧ ∀ r, Nearest r → ∀ t : ℤ,
    stamp 1 0 0 0 0 ≤ t → t + 1000000 ≤ maxStamp → ∃ t', addSodD r t sod = .ok t' ∧ (t' : ℝ) < t + sod * 1000000 := by
  have ds : IsDouble (4563344380027193 * 2 ^ (-53 : ℤ)) := ⟨4563344380027193, -53, by norm_num, by norm_num, by norm_num⟩
  refine ⟨4563344380027193 * 2 ^ (-53 : ℤ), ds, by norm_num, by norm_num, ?_⟩
  intro r hr t h1 h2
  have fl : ⌊(4563344380027193 * 2 ^ (-53 : ℤ) : ℝ)⌋ = 0 := by
    rw [Int.floor_eq_iff]; norm_num
  have e : r ((4563344380027193 * 2 ^ (-53 : ℤ) - ((0 : ℤ) : ℝ)) * 1000000) = 506633 := by
    have := hr.absorb (v := 506633) (d := 2 ^ (-47 : ℤ)) (e := -34)
      (by exact_mod_cast isDouble_nat (n := 506633) (by norm_num)) (by norm_num) (by norm_num)
    rw [← this]
    congr 1
    norm_num
  have ce : ⌈(506633 : ℝ)⌉ = 506633 := by
    exact_mod_cast Int.ceil_natCast (R := ℝ) 506633
  refine ⟨t + 506633, ?_, by push_cast; norm_num⟩
  unfold addSodD
  simp only [if_pos (show (0 : ℝ) ≤ 4563344380027193 * 2 ^ (-53 : ℤ) by norm_num), fl, e, ce, zero_mul, add_zero]
  rw [if_pos ⟨h1, by omega⟩, if_pos (by norm_num), if_pos (by omega)]

/-- C151. A number of microseconds of the day, written as decimal seconds and read as a double, gives the time of that
microsecond or of the next one.  Missing: that it is never the next one, see `C151_decimal_refuted`. -/
theorem C151_decimal_partial {r : ℝ → ℝ} (hr : Nearest r) {t : ℤ} {n : ℕ} (hn : n < 86400000000)
    (h1 : stamp 1 0 0 0 0 ≤ t) (h2 : t + n + 1 ≤ maxStamp) :
    addSodD r t (r (n / 1000000)) = .ok (t + n) ∨ addSodD r t (r (n / 1000000)) = .ok (t + n + 1) := by
  have hn' : (n : ℝ) < 86400000000 := by exact_mod_cast hn
  have s0 : 0 ≤ r ((n : ℝ) / 1000000) := hr.dbl_le isDouble_zero (by positivity)
  have es := abs_le.1 (hr.err (x := (n : ℝ) / 1000000) (e := -36) (by norm_num) (by
    rw [abs_of_nonneg (by positivity)]; norm_num; linarith))
  generalize r ((n : ℝ) / 1000000) = sod at *
  have f0 := Int.floor_le sod
  have f1 := Int.lt_floor_add_one sod
  have fn : 0 ≤ ⌊sod⌋ := Int.floor_nonneg.2 s0
  norm_num at es
  unfold addSodD
  simp only [if_pos s0]
  generalize ⌊sod⌋ = k at *
  have e := abs_le.1 (hr.err (x := (sod - k) * 1000000) (e := -33) (by norm_num) (by
    rw [abs_of_nonneg (by linarith)]; norm_num; linarith))
  norm_num at e
  have low : k * 1000000 ≤ (n : ℤ) := by
    by_contra hc
    push Not at hc
    have hc' : ((n + 1 : ℤ) : ℝ) ≤ ((k * 1000000 : ℤ) : ℝ) := Int.cast_le.2 hc
    push_cast at hc'
    linarith
  rw [if_pos ⟨by omega, by omega⟩]
  split_ifs with h3 h4
  · have c0 : (n : ℤ) ≤ k * 1000000 + ⌈r ((sod - k) * 1000000)⌉ := by
      by_contra hc
      push Not at hc
      have := Int.le_ceil (r ((sod - k) * 1000000))
      have hc' : ((k * 1000000 + ⌈r ((sod - k) * 1000000)⌉ + 1 : ℤ) : ℝ) ≤ ((n : ℤ) : ℝ) := Int.cast_le.2 hc
      push_cast at hc'
      linarith
    have c1 : k * 1000000 + ⌈r ((sod - k) * 1000000)⌉ ≤ (n : ℤ) + 1 := by
      by_contra hc
      push Not at hc
      have := Int.ceil_lt_add_one (r ((sod - k) * 1000000))
      have hc' : ((n + 1 + 1 : ℤ) : ℝ) ≤ ((k * 1000000 + ⌈r ((sod - k) * 1000000)⌉ : ℤ) : ℝ) := Int.cast_le.2 hc
      push_cast at hc'
      linarith
    rcases c0.lt_or_eq with c0 | c0
    · right; congr 1; omega
    · left; congr 1; omega
  · exfalso
    apply h4
    have c1 : k * 1000000 + ⌈r ((sod - k) * 1000000)⌉ ≤ (n : ℤ) + 1 := by
      by_contra hc
      push Not at hc
      have := Int.ceil_lt_add_one (r ((sod - k) * 1000000))
      have hc' : ((n + 1 + 1 : ℤ) : ℝ) ≤ ((k * 1000000 + ⌈r ((sod - k) * 1000000)⌉ : ℤ) : ℝ) := Int.cast_le.2 hc
      push_cast at hc'
      linarith
    omega
  · left
    have hz : sod = k := by linarith
    have : k * 1000000 = (n : ℤ) := by
      apply le_antisymm low
      by_contra hc
      push Not at hc
      have hc' : ((k * 1000000 + 1 : ℤ) : ℝ) ≤ ((n : ℤ) : ℝ) := Int.cast_le.2 hc
      push_cast at hc'
      linarith
    rw [this]

/-- C151. If the decimal number of seconds is itself a double, the time is the right one. -/
theorem C151_representable {r : ℝ → ℝ} (hr : Nearest r) {t : ℤ} {n : ℕ} (hn : n < 86400000000)
    (hd : IsDouble ((n : ℝ) / 1000000)) (h1 : stamp 1 0 0 0 0 ≤ t) (h2 : t + n ≤ maxStamp) :
    addSodD r t (n / 1000000) = .ok (t + n) := by
  have s0 : 0 ≤ (n : ℝ) / 1000000 := by positivity
  have f0 := Int.floor_le ((n : ℝ) / 1000000)
  have f1 := Int.lt_floor_add_one ((n : ℝ) / 1000000)
  have fn : 0 ≤ ⌊(n : ℝ) / 1000000⌋ := Int.floor_nonneg.2 s0
  unfold addSodD
  simp only [if_pos s0]
  generalize ⌊(n : ℝ) / 1000000⌋ = k at *
  have e : ((n : ℝ) / 1000000 - k) * 1000000 = ((n - k * 1000000 : ℤ) : ℝ) := by push_cast; ring
  have l0 : k * 1000000 ≤ n := by
    have : ((k * 1000000 : ℤ) : ℝ) ≤ ((n : ℤ) : ℝ) := by push_cast; linarith
    exact Int.cast_le.1 this
  rw [e, hr.keep (isDouble_int (by rw [abs_of_nonneg (by omega)]; omega)), Int.ceil_intCast, if_pos ⟨by omega, by omega⟩]
  split_ifs with h3 h4
  · congr 1; omega
  · omega
  · have : (n : ℤ) = k * 1000000 := by
      have : ((n : ℤ) : ℝ) ≤ ((k * 1000000 : ℤ) : ℝ) := by push_cast; linarith
      exact le_antisymm (Int.cast_le.1 this) l0
    rw [this]

/-- C151, refuted: 1.1 seconds of the day give the time one microsecond after 1.1 seconds. -/
theorem C151_decimal_refuted {r : ℝ → ℝ} (hr : Nearest r) {t : ℤ} (h1 : stamp 1 0 0 0 0 ≤ t) (h2 : t + 1100001 ≤ maxStamp) :
    addSodD r t (r (11 / 10)) = .ok (t + 1100001) := by
  have e : r (11 / 10) = 4953959590107546 * 2 ^ (-52 : ℤ) := by
    have d0 : IsDouble (4953959590107546 * 2 ^ (-52 : ℤ)) := ⟨4953959590107546, -52, by norm_num, by norm_num, by norm_num⟩
    have b := hr.best (11 / 10) _ d0
    have lo : 1 ≤ r (11 / 10) := hr.dbl_le (by exact_mod_cast isDouble_nat (n := 1) (by norm_num)) (by norm_num)
    obtain ⟨k, hk⟩ := (hr.mem (11 / 10)).coarse (e := -52) (by rw [abs_of_nonneg (by linarith)]; norm_num; exact lo)
    have g : |r (11 / 10) - 4953959590107546 * 2 ^ (-52 : ℤ)| < 2 ^ (-52 : ℤ) := by
      have a := abs_le.1 b
      rw [abs_of_pos (by norm_num)] at a
      norm_num at a ⊢
      exact abs_lt.2 ⟨by linarith, by linarith⟩
    rw [hk] at g ⊢
    have : k = 4953959590107546 := grid_eq (by push_cast; exact g)
    rw [this]
    norm_num
  rw [e]
  have fl : ⌊(4953959590107546 * 2 ^ (-52 : ℤ) : ℝ)⌋ = 1 := by
    rw [Int.floor_eq_iff]; norm_num
  have ce : ⌈r ((4953959590107546 * 2 ^ (-52 : ℤ) - ((1 : ℤ) : ℝ)) * 1000000)⌉ = 100001 := by
    have x := abs_le.1 (hr.err (x := (4953959590107546 * 2 ^ (-52 : ℤ) - ((1 : ℤ) : ℝ)) * 1000000) (e := -36) (by norm_num) (by
      rw [abs_of_nonneg (by norm_num)]; norm_num))
    rw [Int.ceil_eq_iff]
    norm_num at x ⊢
    constructor <;> linarith [x.1, x.2]
  unfold addSodD
  simp only [if_pos (show (0 : ℝ) ≤ 4953959590107546 * 2 ^ (-52 : ℤ) by norm_num), fl, ce]
  rw [if_pos ⟨by omega, by omega⟩, if_pos (by norm_num), if_pos (by omega)]
  congr 1
  omega

example : addSodD toDouble (stamp 730000 0 0 0 0) (toDouble (11 / 10)) = .ok (stamp 730000 0 0 1 100001) := by
  rw [C151_decimal_refuted toDouble_nearest (by unfold stamp; norm_num) (by unfold maxStamp stamp Ocb.Text.maxOrd; norm_num)]
  unfold stamp
  norm_num

example : addSodD toDouble (stamp 730000 0 0 0 0) (((1500000 : ℕ) : ℝ) / 1000000) = .ok (stamp 730000 0 0 1 500000) := by
  rw [C151_representable toDouble_nearest (by norm_num) ⟨3, -1, by norm_num, by norm_num, by norm_num⟩ (by unfold stamp; norm_num)
    (by unfold maxStamp stamp Ocb.Text.maxOrd; norm_num)]
  unfold stamp
  norm_num

/-- Different microseconds are different seconds. -/
theorem seconds_lt {r : ℝ → ℝ} (hr : Nearest r) {a b : ℤ} (ha : |a| ≤ 2 ^ 33 * 1000000) (hb : |b| ≤ 2 ^ 33 * 1000000) (h : a < b) :
    totalSeconds r a < totalSeconds r b := by
  have key : ∀ c : ℤ, |c| ≤ 2 ^ 33 * 1000000 → |totalSeconds r c - c / 1000000| ≤ 2 ^ (-20 : ℤ) / 2 := by
    intro c hc
    refine hr.err (by norm_num) ?_
    have : ((|c| : ℤ) : ℝ) ≤ ((2 ^ 33 * 1000000 : ℤ) : ℝ) := Int.cast_le.2 hc
    rw [Int.cast_abs] at this
    rw [abs_div, abs_of_pos (by norm_num : (0 : ℝ) < 1000000), div_le_iff₀ (by norm_num)]
    norm_num at this ⊢
    exact this
  have h1 := abs_le.1 (key a ha)
  have h2 := abs_le.1 (key b hb)
  have h3 : (a : ℝ) + 1 ≤ b := by exact_mod_cast h
  norm_num at h1 h2
  linarith [h1.2, h2.1]

theorem seconds_lt_iff {r : ℝ → ℝ} (hr : Nearest r) {a b : ℤ} (ha : |a| ≤ 2 ^ 33 * 1000000) (hb : |b| ≤ 2 ^ 33 * 1000000) :
    totalSeconds r a < totalSeconds r b ↔ a < b := by
  refine ⟨fun h => ?_, seconds_lt hr ha hb⟩
  by_contra hc
  rcases (not_lt.1 hc).lt_or_eq with hc | rfl
  · linarith [seconds_lt hr hb ha hc]
  · exact lt_irrefl _ h

theorem seconds_whole {r : ℝ → ℝ} (hr : Nearest r) {n : ℤ} (hn : |n| ≤ 2 ^ 53) : totalSeconds r (n * 1000000) = n := by
  unfold totalSeconds
  push_cast
  rw [mul_div_cancel_right₀ _ (by norm_num)]
  exact hr.keep (isDouble_int hn)

/-- C152. The tests of the time differences against a tolerance in whole seconds, and of two time differences against each
other, have the outcome they have in exact arithmetic, for differences and tolerances up to `2 ^ 33` seconds, 272 years.  The rule for
ties must not depend on the sign, as with IEEE 754. -/
theorem C152_tests_partial {r : ℝ → ℝ} (hr : Nearest r) (odd : ∀ x, r (-x) = -r x) {a b tol : ℤ} (ha : |a| ≤ 2 ^ 33 * 1000000)
    (hb : |b| ≤ 2 ^ 33 * 1000000) (ht : |tol| ≤ 2 ^ 33) :
    (IsEarly r tol a ↔ a < -(tol * 1000000)) ∧ (IsLate r tol a ↔ tol * 1000000 < a) ∧
      (IsCloser r a b ↔ |a| < |b|) ∧ (IsFar r tol a ↔ tol * 1000000 < |a|) := by
  have t1 : |tol * 1000000| ≤ 2 ^ 33 * 1000000 := by
    rw [abs_mul, abs_of_pos (by norm_num : (0 : ℤ) < 1000000)]
    omega
  have t2 : |-tol * 1000000| ≤ 2 ^ 33 * 1000000 := by rw [neg_mul, abs_neg]; exact t1
  have w1 := seconds_whole hr (n := tol) (by omega)
  have w2 := seconds_whole hr (n := -tol) (by rw [abs_neg]; omega)
  push_cast at w2
  have sgn : ∀ c : ℤ, |totalSeconds r c| = totalSeconds r |c| := by
    intro c
    rcases le_or_gt 0 c with h | h
    · rw [abs_of_nonneg h, abs_of_nonneg]
      refine hr.dbl_le isDouble_zero ?_
      have : (0 : ℝ) ≤ c := by exact_mod_cast h
      positivity
    · have e : totalSeconds r (-c) = -totalSeconds r c := by
        unfold totalSeconds
        push_cast
        rw [neg_div, odd]
      rw [abs_of_neg h, e, abs_of_nonpos]
      refine hr.le_dbl isDouble_zero ?_
      have : (c : ℝ) ≤ 0 := by exact_mod_cast h.le
      exact div_nonpos_of_nonpos_of_nonneg this (by norm_num)
  have aa : ∀ c : ℤ, |c| ≤ 2 ^ 33 * 1000000 → |(|c|)| ≤ 2 ^ 33 * 1000000 := fun c h => by rwa [abs_abs]
  refine ⟨?_, ?_, ?_, ?_⟩
  · unfold IsEarly
    rw [← w2, seconds_lt_iff hr ha t2, neg_mul]
  · unfold IsLate
    rw [← w1, seconds_lt_iff hr t1 ha]
  · unfold IsCloser
    rw [sgn, sgn, seconds_lt_iff hr (aa _ ha) (aa _ hb)]
  · unfold IsFar
    rw [sgn, ← w1, seconds_lt_iff hr t1 (aa _ ha)]

/-- C152, refuted beyond: microseconds after `2 ^ 33` seconds are not told apart. -/
theorem C152_far_refuted {r : ℝ → ℝ} (hr : Nearest r) : ¬ IsCloser r (2 ^ 33 * 1000000 + 1) (2 ^ 33 * 1000000 + 2) := by
  have e1 : totalSeconds r (2 ^ 33 * 1000000 + 1) = ((2 ^ 52 + 1 : ℤ) : ℝ) * 2 ^ (-19 : ℤ) :=
    hr.near (by norm_num) (by norm_num) (by norm_num) (by rw [abs_lt]; norm_num)
  have e2 : totalSeconds r (2 ^ 33 * 1000000 + 2) = ((2 ^ 52 + 1 : ℤ) : ℝ) * 2 ^ (-19 : ℤ) :=
    hr.near (by norm_num) (by norm_num) (by norm_num) (by rw [abs_lt]; norm_num)
  unfold IsCloser
  rw [e1, e2]
  exact lt_irrefl _

/-- The rule for ties of IEEE 754 does not depend on the sign. -/
theorem toDouble_neg (x : ℝ) : toDouble (-x) = -toDouble x := by
  have rn : ∀ y : ℝ, Ocb.Text.roundEven (-y) = -Ocb.Text.roundEven y := by
    intro y
    have f0 := Int.floor_le y
    have f1 := Int.lt_floor_add_one y
    by_cases h : y = ⌊y⌋
    · have e : ∀ n : ℤ, Ocb.Text.roundEven n = n := by
        intro n
        unfold Ocb.Text.roundEven
        rw [Int.floor_intCast, sub_self, if_pos (by norm_num)]
      rw [h]
      have := e (-⌊y⌋)
      push_cast at this
      rw [this, e]
    · have f2 : (⌊y⌋ : ℝ) < y := lt_of_le_of_ne f0 (Ne.symm h)
      have e : ⌊-y⌋ = -⌊y⌋ - 1 := by
        rw [Int.floor_eq_iff]
        push_cast
        constructor <;> linarith
      unfold Ocb.Text.roundEven
      rw [e]
      push_cast
      split_ifs <;> first | omega | (exfalso; linarith)
  have lb : lastBit (-x) = lastBit x := by unfold lastBit; rw [abs_neg]
  unfold toDouble
  rw [lb, neg_div, rn]
  push_cast
  ring

example : IsLate toDouble 60 60000001 ∧ ¬ IsLate toDouble 60 60000000 ∧ IsCloser toDouble (-300000) 300001 := by
  have h := fun a b (ha : |a| ≤ 2 ^ 33 * 1000000) (hb : |b| ≤ 2 ^ 33 * 1000000) =>
    C152_tests_partial toDouble_nearest toDouble_neg (a := a) (b := b) (tol := 60) ha hb (by norm_num)
  refine ⟨?_, ?_, ?_⟩
  · exact (h 60000001 0 (by norm_num) (by norm_num)).2.1.2 (by norm_num)
  · rw [(h 60000000 0 (by norm_num) (by norm_num)).2.1]; norm_num
  · exact (h (-300000) 300001 (by norm_num) (by norm_num)).2.2.1.2 (by norm_num)

end Ocb.Dbl
