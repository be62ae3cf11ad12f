import Verif.Model.OutText
import Verif.Props.Ascii
import Verif.Props.ConvertTime
import Verif.Props.ScaleDouble
import Verif.Lemmas.Text

/-!
# The numbers and times in the output files, and reading the files back
-/

set_option autoImplicit false

namespace Ocb.OutText

open Ocb.Files (Name)
open Ocb.Vort (F Conv)
open Ocb.Text
open Ocb.Dbl (toDouble toDouble_nearest Nearest)

/-! ### Decimal texts -/

/-- The number that a plain decimal text stands for: an optional minus sign, digits, and possibly a point and digits -/
noncomputable def plain (w : Name) : Option ℝ :=
  let body := if w.head? = some '-' then w.tail else w
  let d := body.takeWhile (· ≠ '.')
  let f := (body.dropWhile (· ≠ '.')).drop 1
  if d ≠ [] ∧ d.all isDig = true ∧ f.all isDig = true then
    some ((if w.head? = some '-' then -1 else 1) * (value d + value f / 10 ^ f.length))
  else none

theorem dig_ne {c d : Char} (h : isDig c = true) (hd : isDig d = false) : c ≠ d := by
  rintro rfl
  rw [h] at hd
  cases hd

theorem digs_ne {p : Name} (hp : p.all isDig = true) : ∀ c ∈ p, c ≠ '.' ∧ c ≠ '-' ∧ c ≠ '#' ∧ isWs c = false := by
  intro c hc
  have h := List.all_eq_true.1 hp c hc
  refine ⟨dig_ne h (by decide), dig_ne h (by decide), dig_ne h (by decide), ?_⟩
  simp only [isWs, Bool.or_eq_false_iff, beq_eq_false_iff_ne]
  exact ⟨⟨⟨dig_ne h (by decide), dig_ne h (by decide)⟩, dig_ne h (by decide)⟩, dig_ne h (by decide)⟩

theorem head_dig {d : Name} (hd : d.all isDig = true) (hne : d ≠ []) (rest : Name) : (d ++ rest).head? ≠ some '-' := by
  cases d with
  | nil => exact (hne rfl).elim
  | cons c d =>
    intro h
    simp only [List.cons_append, List.head?_cons, Option.some.injEq] at h
    exact (digs_ne hd c (by simp)).2.1 h

theorem split_point {d f : Name} (hd : d.all isDig = true) :
    (d ++ '.' :: f).takeWhile (· ≠ '.') = d ∧ (d ++ '.' :: f).dropWhile (· ≠ '.') = '.' :: f := by
  have h : ∀ c ∈ d, decide (c ≠ '.') = true := fun c hc => by
    have := (digs_ne hd c hc).1
    simpa using this
  rw [List.takeWhile_append_of_pos h, List.dropWhile_append_of_pos h]
  constructor
  · rw [List.takeWhile_cons_of_neg (by decide)]; simp
  · rw [List.dropWhile_cons_of_neg (by decide)]

/-- A plain decimal text with a point -/
theorem plain_point {d f : Name} (hd : d.all isDig = true) (hne : d ≠ []) (hf : f.all isDig = true) :
    plain (d ++ '.' :: f) = some ((value d : ℝ) + value f / 10 ^ f.length) ∧
      plain ('-' :: (d ++ '.' :: f)) = some (-((value d : ℝ) + value f / 10 ^ f.length)) := by
  obtain ⟨h1, h2⟩ := split_point (f := f) hd
  constructor
  · simp only [plain]
    rw [if_neg (head_dig hd hne _), if_neg (head_dig hd hne _), h1, h2, List.drop_one, List.tail_cons, if_pos ⟨hne, hd, hf⟩,
      one_mul]
  · simp only [plain, List.head?_cons, if_true, List.tail_cons]
    rw [h1, h2, List.drop_one, List.tail_cons, if_pos ⟨hne, hd, hf⟩, neg_one_mul]

/-- A whole number as a plain decimal text -/
theorem plain_int (z : ℤ) : plain (decInt z) = some (z : ℝ) := by
  obtain ⟨h1, h2, h3⟩ := dec_spec z.natAbs
  have hs : (dec z.natAbs).takeWhile (· ≠ '.') = dec z.natAbs ∧ (dec z.natAbs).dropWhile (· ≠ '.') = [] := by
    have h : ∀ c ∈ dec z.natAbs, decide (c ≠ '.') = true := fun c hc => by
      have := (digs_ne h2 c hc).1
      simpa using this
    have a := List.takeWhile_append_of_pos (l₂ := ([] : Name)) h
    have b := List.dropWhile_append_of_pos (l₂ := ([] : Name)) h
    simp only [List.append_nil] at a b
    rw [a, b]
    simp
  have hh : (dec z.natAbs).head? ≠ some '-' := by
    have := head_dig h2 h3 []
    rwa [List.append_nil] at this
  unfold decInt
  by_cases hz : z < 0
  · rw [if_pos hz]
    simp only [plain, List.head?_cons, if_true, List.tail_cons]
    rw [hs.1, hs.2, List.drop_nil, if_pos ⟨h3, h2, rfl⟩, h1]
    have : ((z.natAbs : ℕ) : ℝ) = -(z : ℝ) := by
      rw [← Int.cast_natCast, Int.ofNat_natAbs_of_nonpos hz.le]; push_cast; ring
    rw [this]
    simp [value]
  · rw [if_neg hz]
    simp only [plain]
    rw [if_neg hh, if_neg hh, hs.1, hs.2, List.drop_nil, if_pos ⟨h3, h2, rfl⟩, h1]
    have : ((z.natAbs : ℕ) : ℝ) = (z : ℝ) := by
      rw [← Int.cast_natCast, Int.natAbs_of_nonneg (by omega)]
    rw [this]
    simp [value]

theorem value_zeros (m : ℕ) (w : Name) : value (List.replicate m '0' ++ w) = value w := by
  unfold value
  rw [List.foldl_append]
  congr 1
  induction m with
  | zero => rfl
  | succ m ih => rw [List.replicate_succ, List.foldl_cons]; exact ih

theorem zfill_spec (k n : ℕ) : value (zfill k (dec n)) = n ∧ (zfill k (dec n)).all isDig = true ∧
    ((1 ≤ k ∧ n < 10 ^ k) → (zfill k (dec n)).length = k) ∧ zfill k (dec n) ≠ [] := by
  obtain ⟨h1, h2, h3⟩ := dec_spec n
  refine ⟨by rw [zfill, value_zeros, h1], ?_, ?_, ?_⟩
  · rw [zfill, List.all_append, h2, Bool.and_true, List.all_eq_true]
    intro c hc
    rw [List.eq_of_mem_replicate hc]
    decide
  · rintro ⟨a, b⟩
    have := (dec_length n k a).2 b
    rw [zfill, List.length_append, List.length_replicate]
    omega
  · rw [zfill]
    exact fun h => h3 (List.append_eq_nil_iff.1 h).2

/-- The number written for `x` with `k` decimals -/
noncomputable def written (k : ℕ) (x : ℝ) : ℝ :=
  (if x < 0 then -1 else 1) * ((roundEven (|x| * 10 ^ k) : ℤ) / 10 ^ k)

theorem roundEven_nonneg {x : ℝ} (h : 0 ≤ x) : 0 ≤ roundEven x := by
  have h1 := abs_le.1 (roundEven_near x)
  have : (-1 : ℝ) < roundEven x := by linarith [h1.1]
  have : (-1 : ℤ) < roundEven x := by exact_mod_cast this
  omega

theorem roundEven_mono {x y : ℝ} (h : x ≤ y) : roundEven x ≤ roundEven y := by
  by_contra hc
  push Not at hc
  have h1 := abs_le.1 (roundEven_near x)
  have h2 := abs_le.1 (roundEven_near y)
  have h3 : (roundEven y : ℝ) + 1 ≤ roundEven x := by exact_mod_cast hc
  have : x = y := by linarith [h1.2, h2.1]
  rw [this] at hc
  exact lt_irrefl _ hc

theorem roundEven_int (n : ℤ) : roundEven (n : ℝ) = n := by
  have h := abs_le.1 (roundEven_near (n : ℝ))
  have h1 : (roundEven (n : ℝ) : ℝ) < n + 1 := by linarith [h.2]
  have h2 : (n : ℝ) < roundEven (n : ℝ) + 1 := by linarith [h.1]
  have h1 : roundEven (n : ℝ) < n + 1 := by exact_mod_cast h1
  have h2 : n < roundEven (n : ℝ) + 1 := by exact_mod_cast h2
  omega

theorem roundEven_eq {x : ℝ} {n : ℤ} (h : |x - n| < 1 / 2) : roundEven x = n := by
  have h0 := abs_le.1 (roundEven_near x)
  obtain ⟨a, b⟩ := abs_lt.1 h
  have h1 : (roundEven x : ℝ) < n + 1 := by linarith [h0.2]
  have h2 : (n : ℝ) < roundEven x + 1 := by linarith [h0.1]
  have h1 : roundEven x < n + 1 := by exact_mod_cast h1
  have h2 : n < roundEven x + 1 := by exact_mod_cast h2
  omega

theorem parts_value (q k : ℕ) : ((q / 10 ^ k : ℕ) : ℝ) + ((q % 10 ^ k : ℕ) : ℝ) / 10 ^ k = q / 10 ^ k := by
  have h : ((10 ^ k * (q / 10 ^ k) + q % 10 ^ k : ℕ) : ℝ) = q := by rw [Nat.div_add_mod]
  push_cast at h ⊢
  rw [← h]
  field_simp

/-- The text of a number reads as the number `written`. -/
theorem fixed_plain {k : ℕ} (hk : 1 ≤ k) (x : ℝ) : plain (fixed k x) = some (written k x) := by
  have hq := roundEven_nonneg (x := |x| * 10 ^ k) (by positivity)
  obtain ⟨d1, d2, d3⟩ := dec_spec ((roundEven (|x| * 10 ^ k)).toNat / 10 ^ k)
  obtain ⟨f1, f2, f3, f4⟩ := zfill_spec k ((roundEven (|x| * 10 ^ k)).toNat % 10 ^ k)
  have f3 := f3 ⟨hk, Nat.mod_lt _ (by positivity)⟩
  obtain ⟨p1, p2⟩ := plain_point d2 d3 f2
  rw [d1, f1, f3, parts_value] at p1 p2
  have e : (((roundEven (|x| * 10 ^ k)).toNat : ℕ) : ℝ) = ((roundEven (|x| * 10 ^ k) : ℤ) : ℝ) := by
    rw [← Int.cast_natCast, Int.toNat_of_nonneg hq]
  rw [e] at p1 p2
  unfold fixed written
  by_cases hx : x < 0
  · simp only [if_pos hx]
    rw [neg_one_mul]
    exact p2
  · simp only [if_neg hx]
    rw [one_mul]
    exact p1

/-- The number written is the nearest one with `k` decimals, to half a unit of the last one. -/
theorem written_near (k : ℕ) (x : ℝ) : |written k x - x| ≤ 1 / 2 / 10 ^ k := by
  have h := roundEven_near (|x| * 10 ^ k)
  have hp : (0 : ℝ) < 10 ^ k := by positivity
  have e : |(roundEven (|x| * 10 ^ k) : ℝ) / 10 ^ k - (|x|)| ≤ 1 / 2 / 10 ^ k := by
    rw [le_div_iff₀ hp, ← abs_of_pos hp, ← abs_mul, abs_of_pos hp, sub_mul, div_mul_cancel₀ _ hp.ne']
    exact h
  unfold written
  by_cases hx : x < 0
  · rw [if_pos hx, neg_one_mul]
    rw [abs_of_neg hx] at e ⊢
    rw [abs_sub_comm] at e
    convert e using 2
    ring
  · push Not at hx
    rw [if_neg hx.not_gt, one_mul]
    rw [abs_of_nonneg hx] at e ⊢
    exact e

theorem written_nonneg {k : ℕ} {x : ℝ} (h : 0 ≤ x) : 0 ≤ written k x := by
  have := roundEven_nonneg (x := |x| * 10 ^ k) (by positivity)
  unfold written
  rw [if_neg h.not_gt, one_mul]
  have : (0 : ℝ) ≤ roundEven (|x| * 10 ^ k) := by exact_mod_cast this
  positivity

theorem written_nonpos {k : ℕ} {x : ℝ} (h : x ≤ 0) : written k x ≤ 0 := by
  rcases h.lt_or_eq with h | rfl
  · have := roundEven_nonneg (x := |x| * 10 ^ k) (by positivity)
    have : (0 : ℝ) ≤ roundEven (|x| * 10 ^ k) := by exact_mod_cast this
    have : (0 : ℝ) ≤ roundEven (|x| * 10 ^ k) / 10 ^ k := by positivity
    unfold written
    rw [if_pos h]
    linarith
  · have : roundEven (0 : ℝ) = 0 := by exact_mod_cast roundEven_int 0
    simp [written, this]

theorem written_neg (k : ℕ) (x : ℝ) : written k (-x) = -written k x := by
  rcases lt_trichotomy x 0 with h | rfl | h
  · unfold written
    rw [if_neg (by linarith), if_pos h, abs_neg]; ring
  · have h : written k 0 = 0 := le_antisymm (written_nonpos le_rfl) (written_nonneg le_rfl)
    simp [h]
  · unfold written
    rw [if_pos (by linarith), if_neg (by linarith), abs_neg]; ring

theorem written_mono_nonneg {k : ℕ} {x y : ℝ} (h0 : 0 ≤ x) (h : x ≤ y) : written k x ≤ written k y := by
  have hp : (0 : ℝ) < 10 ^ k := by positivity
  unfold written
  rw [if_neg h0.not_gt, if_neg (h0.trans h).not_gt, one_mul, one_mul, abs_of_nonneg h0, abs_of_nonneg (h0.trans h)]
  have := roundEven_mono (mul_le_mul_of_nonneg_right h hp.le)
  have : ((roundEven (x * 10 ^ k) : ℤ) : ℝ) ≤ roundEven (y * 10 ^ k) := by exact_mod_cast this
  exact div_le_div_of_nonneg_right this hp.le

/-- Writing keeps the order. -/
theorem written_mono {k : ℕ} {x y : ℝ} (h : x ≤ y) : written k x ≤ written k y := by
  rcases le_total 0 x with hx | hx
  · exact written_mono_nonneg hx h
  rcases le_total 0 y with hy | hy
  · exact (written_nonpos hx).trans (written_nonneg hy)
  · have := written_mono_nonneg (k := k) (x := -y) (y := -x) (by linarith) (by linarith)
    rw [written_neg, written_neg] at this
    linarith

/-- Numbers with `k` decimals are written as they are, and so is everything nearer to them than half a unit. -/
theorem written_eq {k : ℕ} {x : ℝ} {n : ℤ} (h : |x - n / 10 ^ k| < 1 / 2 / 10 ^ k) : written k x = n / 10 ^ k := by
  have hp : (0 : ℝ) < 10 ^ k := by positivity
  have pos : ∀ {x : ℝ} {n : ℤ}, 0 ≤ x → |x - n / 10 ^ k| < 1 / 2 / 10 ^ k → written k x = n / 10 ^ k := by
    intro x n h0 h
    unfold written
    rw [if_neg h0.not_gt, one_mul, abs_of_nonneg h0]
    congr 2
    refine roundEven_eq ?_
    rw [lt_div_iff₀ hp, ← abs_of_pos hp, ← abs_mul, abs_of_pos hp, sub_mul, div_mul_cancel₀ _ hp.ne'] at h
    exact h
  rcases le_total 0 x with hx | hx
  · exact pos hx h
  · have := pos (x := -x) (n := -n) (by linarith) (by
      rw [← abs_neg]
      push_cast
      convert h using 2
      ring)
    rw [written_neg] at this
    push_cast at this
    linarith [neg_div ((10 : ℝ) ^ k) (n : ℝ)]

theorem written_grid (k : ℕ) (x : ℝ) : ∃ n : ℤ, written k x = n / 10 ^ k := by
  unfold written
  by_cases hx : x < 0
  · exact ⟨-roundEven (|x| * 10 ^ k), by rw [if_pos hx]; push_cast; ring⟩
  · exact ⟨roundEven (|x| * 10 ^ k), by rw [if_neg hx]; ring⟩

/-- The letters of the text of a number: digits, a point and perhaps a minus sign -/
theorem fixed_chars {k : ℕ} (x : ℝ) : fixed k x ≠ [] ∧ ∀ c ∈ fixed k x, c ≠ '#' ∧ isWs c = false := by
  obtain ⟨d1, d2, d3⟩ := dec_spec ((roundEven (|x| * 10 ^ k)).toNat / 10 ^ k)
  obtain ⟨f1, f2, f3, f4⟩ := zfill_spec k ((roundEven (|x| * 10 ^ k)).toNat % 10 ^ k)
  unfold fixed
  refine ⟨by simp, ?_⟩
  intro c hc
  simp only [List.mem_append, List.mem_cons] at hc
  rcases hc with hc | hc | hc | hc
  · split at hc
    · rw [List.mem_singleton] at hc
      subst hc
      decide
    · simp at hc
  · exact (digs_ne d2 c hc).2.2
  · subst hc
    decide
  · exact (digs_ne f2 c hc).2.2

/-! ### C194: what the numbers read as -/

/-- C194: the text of a finite number is one word that reads, digit by digit, as a number with `k` decimals, at most half a
unit of the last decimal from it, on the same side of zero; greater numbers give numbers that are not less; and a number
with `k` decimals is written exactly, so that writing again what was read changes nothing. -/
theorem C194_numbers {k : ℕ} (hk : 1 ≤ k) (x : ℝ) : ∃ v, plain (fixed k x) = some v ∧ |v - x| ≤ 1 / 2 / 10 ^ k ∧
    (0 ≤ x → 0 ≤ v) ∧ (x ≤ 0 → v ≤ 0) ∧ (∃ n : ℤ, v = n / 10 ^ k) ∧ plain (fixed k v) = some v ∧
    (∀ y, x ≤ y → ∃ u, plain (fixed k y) = some u ∧ v ≤ u) ∧
    Smag.words (fixed k x) = [fixed k x] := by
  refine ⟨written k x, fixed_plain hk x, written_near k x, fun h => written_nonneg h, fun h => written_nonpos h,
    written_grid k x, ?_, fun y hy => ⟨_, fixed_plain hk y, written_mono hy⟩, ?_⟩
  · obtain ⟨n, hn⟩ := written_grid k x
    rw [fixed_plain hk, hn, written_eq (n := n) (by rw [sub_self, abs_zero]; positivity)]
  · have := Ascii.words_glue [fixed k x] (by
      intro w hw
      rw [List.mem_singleton] at hw
      subst hw
      exact ⟨(fixed_chars x).1, fun c hc => ((fixed_chars x).2 c hc).2⟩)
    rwa [show Ascii.glue [fixed k x] = fixed k x by simp [Ascii.glue, List.intercalate]] at this

/-- C194 in double precision: when the text is read as the nearest double, and the number has not more than fifteen digits,
writing what was read gives the same number again. -/
theorem C194_again {k : ℕ} (hk : 1 ≤ k) {x : ℝ} (hx : |x| * 10 ^ k ≤ 10 ^ 15 - 1) (hk' : k ≤ 300) :
    ∃ v, plain (fixed k x) = some v ∧ plain (fixed k (toDouble v)) = some v := by
  refine ⟨written k x, fixed_plain hk x, ?_⟩
  obtain ⟨n, hn⟩ := written_grid k x
  rw [fixed_plain hk, Option.some.injEq, hn]
  refine written_eq ?_
  have hp : (0 : ℝ) < 10 ^ k := by positivity
  have hr := toDouble_nearest.relAbs ((n : ℝ) / 10 ^ k)
  have hb : |(n : ℝ)| ≤ 10 ^ 15 := by
    have h1 := written_near k x
    rw [hn, le_div_iff₀ hp, ← abs_of_pos hp, ← abs_mul, abs_of_pos hp, sub_mul, div_mul_cancel₀ _ hp.ne'] at h1
    have h2 := abs_sub_abs_le_abs_sub (n : ℝ) (x * 10 ^ k)
    rw [abs_mul, abs_of_pos hp] at h2
    linarith
  refine lt_of_le_of_lt hr ?_
  rw [abs_div, abs_of_pos hp, ← mul_div_assoc, lt_div_iff₀ hp, add_mul, div_mul_cancel₀ _ hp.ne']
  have h1 : (2 : ℝ) ^ (-53 : ℤ) * |(n : ℝ)| ≤ 1 / 4 := by
    have : (2 : ℝ) ^ (-53 : ℤ) * |(n : ℝ)| ≤ 2 ^ (-53 : ℤ) * 10 ^ 15 := mul_le_mul_of_nonneg_left hb (by positivity)
    refine this.trans ?_
    norm_num
  have h2 : (2 : ℝ) ^ (-1075 : ℤ) * 10 ^ k < 1 / 4 := by
    have h4 : (10 : ℝ) ^ k ≤ 2 ^ (1000 : ℤ) := by
      calc (10 : ℝ) ^ k ≤ 10 ^ 300 := pow_le_pow_right₀ (by norm_num) hk'
        _ = (10 ^ 3) ^ 100 := by rw [← pow_mul]
        _ ≤ (2 ^ 10) ^ 100 := pow_le_pow_left₀ (by norm_num) (by norm_num) _
        _ = 2 ^ (1000 : ℤ) := by rw [← pow_mul]; exact (zpow_natCast (2 : ℝ) (10 * 100)).symm
    calc (2 : ℝ) ^ (-1075 : ℤ) * 10 ^ k ≤ 2 ^ (-1075 : ℤ) * 2 ^ (1000 : ℤ) :=
          mul_le_mul_of_nonneg_left h4 (by positivity)
      _ = 2 ^ (-75 : ℤ) := by rw [← zpow_add₀ (by norm_num)]; norm_num
      _ < 1 / 4 := by norm_num
  linarith

/-! ### C195: limits and sums of the numbers in the files -/

theorem written_whole (k : ℕ) (n : ℤ) : written k n = n := by
  have hp : (0 : ℝ) < 10 ^ k := by positivity
  have := written_eq (k := k) (x := (n : ℝ)) (n := n * 10 ^ k) (by
    push_cast
    rw [mul_div_cancel_right₀ _ hp.ne', sub_self, abs_zero]
    positivity)
  rw [this]
  push_cast
  rw [mul_div_cancel_right₀ _ hp.ne']

/-- C195 as far as it holds: a number between whole numbers, these included, is read as one between them.  In particular
local times from 0 to below 24 are read as 0 to 24, latitudes of the north as 0 to 90, and what is on the boundary or
equatorward of it, when the boundary is at a whole latitude, is not read as poleward of it. -/
theorem C195_between_partial {k : ℕ} (hk : 1 ≤ k) {x : ℝ} {a b : ℤ} (ha : a ≤ x) (hb : x ≤ b) :
    ∃ v, plain (fixed k x) = some v ∧ a ≤ v ∧ v ≤ b :=
  ⟨written k x, fixed_plain hk x, (written_whole k a) ▸ written_mono ha, (written_whole k b) ▸ written_mono hb⟩

/-- Half a unit below an even number is written as the even number. -/
theorem written_below {k : ℕ} (hk : 1 ≤ k) {x : ℝ} {n : ℕ} (h0 : 0 ≤ x) (h1 : n - 1 / 2 / 10 ^ k ≤ x) (h2 : x ≤ n) :
    written k x = n := by
  have hp : (0 : ℝ) < 10 ^ k := by positivity
  rcases h1.lt_or_eq with h1 | h1
  · have := written_eq (k := k) (x := x) (n := n * 10 ^ k) (by
      push_cast
      rw [mul_div_cancel_right₀ _ hp.ne', abs_lt]
      constructor <;> linarith [show (0 : ℝ) < 1 / 2 / 10 ^ k by positivity])
    rw [this]
    push_cast
    rw [mul_div_cancel_right₀ _ hp.ne']
  · unfold written
    rw [if_neg h0.not_gt, one_mul, abs_of_nonneg h0]
    have e : x * 10 ^ k = n * 10 ^ k - 1 / 2 := by
      rw [← h1, sub_mul, div_mul_cancel₀ _ hp.ne']
    have hfl : ⌊(n : ℝ) * 10 ^ k - 1 / 2⌋ = (n : ℤ) * 10 ^ k - 1 := by
      rw [Int.floor_eq_iff]
      push_cast
      constructor <;> linarith
    have hev : (10 : ℤ) ^ k % 2 = 0 := by
      obtain ⟨m, rfl⟩ := Nat.exists_eq_add_of_le hk
      rw [pow_add]
      omega
    have hodd : ¬ ((n : ℤ) * 10 ^ k - 1) % 2 = 0 := by
      have : ((n : ℤ) * 10 ^ k) % 2 = 0 := by rw [Int.mul_emod, hev]; simp
      omega
    have hr : roundEven (x * 10 ^ k) = (n : ℤ) * 10 ^ k := by
      rw [e, roundEven, hfl]
      push_cast
      rw [if_neg (by linarith), if_neg (by linarith), if_neg hodd]
      ring
    rw [hr]
    push_cast
    rw [mul_div_cancel_right₀ _ hp.ne']

/-- C195 is false for the upper limit: every local time in the last half unit before midnight is in the file as 24, which is
no local time; the same holds below the latitude of the boundary and for all other whole limits. -/
theorem C195_limit_refuted {k : ℕ} (hk : 1 ≤ k) {n : ℕ} (hn : 1 ≤ n) {x : ℝ} (h1 : n - 1 / 2 / 10 ^ k ≤ x) (h2 : x < n) :
    plain (fixed k x) = some (n : ℝ) := by
  have h10 : (1 : ℝ) / 2 / 10 ^ k ≤ 1 := by
    rw [div_le_one (by positivity)]
    linarith [one_le_pow₀ (show (1 : ℝ) ≤ 10 by norm_num) (n := k)]
  have hn' : (1 : ℝ) ≤ n := by exact_mod_cast hn
  rw [fixed_plain hk, written_below hk (by linarith) h1 h2.le]

/-- C195: a local time of 23.997 hours, and a latitude of 73.9951 degrees with the boundary at 74 degrees. -/
example : plain (fixed 2 23.997) = some 24 ∧ plain (fixed 2 73.9951) = some 74 := by
  constructor
  · have := (C195_limit_refuted (k := 2) (by norm_num) (n := 24) (by norm_num) (x := 23.997) (by norm_num) (by norm_num))
    exact_mod_cast this
  · have := (C195_limit_refuted (k := 2) (by norm_num) (n := 74) (by norm_num) (x := 73.9951) (by norm_num) (by norm_num))
    exact_mod_cast this

/-- C195 is false for the sign: numbers other than zero up to half a unit are read as zero. -/
theorem C195_zero_refuted {k : ℕ} (hk : 1 ≤ k) {x : ℝ} (hx : x ≠ 0) (h : |x| ≤ 1 / 2 / 10 ^ k) :
    plain (fixed k x) = some 0 := by
  have hp : (0 : ℝ) < 10 ^ k := by positivity
  rw [fixed_plain hk]
  have hr : roundEven (|x| * 10 ^ k) = 0 := by
    have h0 : 0 < |x| * 10 ^ k := mul_pos (abs_pos.2 hx) hp
    have h1 : |x| * 10 ^ k ≤ 1 / 2 := by rwa [le_div_iff₀ hp] at h
    have hfl : ⌊|x| * 10 ^ k⌋ = 0 := by
      rw [Int.floor_eq_iff]
      push_cast
      constructor <;> linarith
    rw [roundEven, hfl]
    push_cast
    split_ifs <;> first | rfl | (exfalso; linarith) | (exfalso; simp_all)
  unfold written
  rw [hr]
  simp

example : plain (fixed 6 (-0.0000004)) = some 0 :=
  C195_zero_refuted (by norm_num) (by norm_num) (by rw [abs_of_neg] <;> norm_num)

theorem norm3_near {a b c a' b' c' d : ℝ} (hd : 0 ≤ d) (ha : |a' - a| ≤ d) (hb : |b' - b| ≤ d) (hc : |c' - c| ≤ d) :
    Real.sqrt (a' ^ 2 + b' ^ 2 + c' ^ 2) ≤ Real.sqrt (a ^ 2 + b ^ 2 + c ^ 2) + Real.sqrt 3 * d := by
  have hs := Real.sqrt_nonneg (a ^ 2 + b ^ 2 + c ^ 2)
  have h3 : Real.sqrt 3 ^ 2 = 3 := Real.sq_sqrt (by norm_num)
  have hS : Real.sqrt (a ^ 2 + b ^ 2 + c ^ 2) ^ 2 = a ^ 2 + b ^ 2 + c ^ 2 := Real.sq_sqrt (by positivity)
  refine Real.sqrt_le_iff.2 ⟨by positivity, ?_⟩
  have e2 : ∀ {x x' : ℝ}, |x' - x| ≤ d → x' ^ 2 ≤ x ^ 2 + 2 * d * |x| + d ^ 2 := by
    intro x x' h
    have h1 : |x'| ≤ |x| + d := by linarith [abs_sub_abs_le_abs_sub x' x]
    have h2 := mul_self_le_mul_self (abs_nonneg x') h1
    rw [abs_mul_abs_self] at h2
    nlinarith [abs_mul_abs_self x]
  have k1 : |a| + |b| + |c| ≤ Real.sqrt 3 * Real.sqrt (a ^ 2 + b ^ 2 + c ^ 2) := by
    rw [← Real.sqrt_mul (by norm_num)]
    refine Real.le_sqrt_of_sq_le ?_
    rw [← sq_abs a, ← sq_abs b, ← sq_abs c]
    nlinarith [sq_nonneg (|a| - |b|), sq_nonneg (|a| - |c|), sq_nonneg (|b| - |c|)]
  have k2 := mul_le_mul_of_nonneg_left k1 (show 0 ≤ 2 * d by linarith)
  nlinarith [e2 ha, e2 hb, e2 hc]

/-- C195 for the vectors: when a magnitude is the length of a vector, the magnitude and the components that are read from the
file fit together to 2.8 half units. -/
theorem C195_magnitude {k : ℕ} (hk : 1 ≤ k) {n e z m : ℝ} (hm : m = Real.sqrt (n ^ 2 + e ^ 2 + z ^ 2)) :
    ∃ n' e' z' m', plain (fixed k n) = some n' ∧ plain (fixed k e) = some e' ∧ plain (fixed k z) = some z' ∧
      plain (fixed k m) = some m' ∧ |m' - Real.sqrt (n' ^ 2 + e' ^ 2 + z' ^ 2)| ≤ 2.8 * (1 / 2 / 10 ^ k) := by
  refine ⟨_, _, _, _, fixed_plain hk n, fixed_plain hk e, fixed_plain hk z, fixed_plain hk m, ?_⟩
  have hp : (0 : ℝ) ≤ 1 / 2 / 10 ^ k := by positivity
  have h1 := norm3_near hp (written_near k n) (written_near k e) (written_near k z)
  have h2 := norm3_near hp (a' := n) (b' := e) (c' := z) (a := written k n) (b := written k e) (c := written k z)
    (by rw [abs_sub_comm]; exact written_near k n) (by rw [abs_sub_comm]; exact written_near k e)
    (by rw [abs_sub_comm]; exact written_near k z)
  have h3 := abs_le.1 (written_near k m)
  have h4 : Real.sqrt 3 ≤ 1.8 := Real.sqrt_le_iff.2 ⟨by norm_num, by norm_num⟩
  have h5 := mul_le_mul_of_nonneg_right h4 hp
  rw [← hm] at h1 h2
  rw [abs_le]
  constructor <;> linarith [h3.1, h3.2]

/-! ### Times -/

theorem zfill_two {n : ℕ} (h : n < 100) : zfill 2 (dec n) = pad2 n := by
  by_cases h1 : n < 10
  · have e : dec n = [digitChar n] := by rw [dec, dif_pos h1]
    have e1 : n / 10 = 0 := by omega
    have e2 : n % 10 = n := by omega
    rw [e, pad2, e1, e2]
    rfl
  · have e : dec n = [digitChar (n / 10), digitChar (n % 10)] := by
      rw [dec, dif_neg h1, dec, dif_pos (by omega)]
      rfl
    rw [e, pad2]
    rfl

theorem zfill_four {n : ℕ} (h : n < 10000) : zfill 4 (dec n) = pad4 n := by
  by_cases h1 : n < 10
  · have e : dec n = [digitChar n] := by rw [dec, dif_pos h1]
    rw [e, pad4, show n / 1000 = 0 by omega, show n / 100 % 10 = 0 by omega, show n / 10 % 10 = 0 by omega,
      show n % 10 = n by omega]
    rfl
  by_cases h2 : n < 100
  · have e : dec n = [digitChar (n / 10), digitChar (n % 10)] := by
      rw [dec, dif_neg h1, dec, dif_pos (by omega)]
      rfl
    rw [e, pad4, show n / 1000 = 0 by omega, show n / 100 % 10 = 0 by omega, show n / 10 % 10 = n / 10 by omega]
    rfl
  by_cases h3 : n < 1000
  · have e : dec n = [digitChar (n / 100), digitChar (n / 10 % 10), digitChar (n % 10)] := by
      rw [dec, dif_neg h1, dec, dif_neg (by omega), dec, dif_pos (by omega), show n / 10 / 10 = n / 100 by omega]
      rfl
    rw [e, pad4, show n / 1000 = 0 by omega, show n / 100 % 10 = n / 100 by omega]
    rfl
  · rw [pad4_dec (by omega) (by omega), zfill, dec_length_eq (k := 3) (by omega) (.inl (by omega))]
    rfl

/-- The times that are read back exactly: whole seconds of the calendar -/
def Clock (t : ℤ) : Prop := t % 1000000 = 0 ∧ 86400000000 ≤ t ∧ t ≤ maxStamp

/-- The parts of such a time -/
theorem clock_parts {t : ℤ} (h : Clock t) : ∃ y m d hh mi s : ℕ, Valid y m d ∧ hh < 24 ∧ mi < 60 ∧ s < 60 ∧
    t = midnight y m d + ((hh * 60 + mi) * 60 + s) * 1000000 ∧ dateStr t = dateText y m d ∧
    todStr t = pad2 hh ++ ':' :: (pad2 mi ++ ':' :: pad2 s) := by
  obtain ⟨h1, h2, h3⟩ := h
  have hms : maxStamp = 3652059 * 86400000000 + 86399999999 := by
    unfold maxStamp
    rw [stamp_eq]
    unfold maxOrd
    norm_num
  obtain ⟨n, hn⟩ : ∃ n : ℕ, (n : ℤ) = t / 86400000000 := ⟨(t / 86400000000).toNat, by omega⟩
  obtain ⟨q, hq⟩ : ∃ q : ℕ, (q : ℤ) = t / 1000000 % 86400 := ⟨(t / 1000000 % 86400).toNat, by omega⟩
  have hn1 : 1 ≤ n := by omega
  have hn3 : n ≤ 3652059 := by omega
  have hq1 : q < 86400 := by omega
  obtain ⟨y, m, d, e, g1, g2, g3, g4, g5, g6, g7, g8⟩ := civil_spec hn1
  have hy' : y ≤ 9999 := by
    by_contra hc
    have := dby_mono (a := 10000) (b := y) (by omega) (by omega)
    have h9 : dby 10000 = 3652059 := by decide
    omega
  have hv : Valid y m d := ⟨g1, hy', g2, g3, g4, g5⟩
  have hm31 : d < 100 := lt_of_le_of_lt (day_le g2 g3 g5) (by norm_num)
  refine ⟨y, m, d, q / 3600, q / 60 % 60, q % 60, hv, by omega, by omega, by omega, ?_, ?_, ?_⟩
  · unfold midnight
    rw [g6]
    push_cast
    omega
  · unfold dateStr
    rw [show (t / 86400000000).toNat = n by omega, e]
    simp only
    rw [zfill_four (by omega), zfill_two (by omega), zfill_two hm31]
    rfl
  · unfold todStr
    simp only
    rw [show (t / 1000000 % 86400).toNat = q by omega, show (t % 1000000).toNat = 0 by omega, if_pos rfl,
      zfill_two (by omega), zfill_two (by omega), zfill_two (by omega), List.append_nil]

/-- The default format of times -/
def stdFmt : Name := "%Y-%m-%d %H:%M:%S".toList

/-- A time of whole seconds is read back exactly. -/
theorem time_back {t : ℤ} (h : Clock t) : parseDay (dateStr t ++ ' ' :: todStr t) stdFmt none = .ok t := by
  obtain ⟨y, m, d, hh, mi, s, h2, h3, h4, h5, h6, h7, h8⟩ := clock_parts h
  have := C84_default_format h2 h3 h4 h5 none
  rw [h7, h8]
  have e : ∀ a b : Name, convertTime none none none none (some a) (some b) stdFmt = parseDay (a ++ ' ' :: b) stdFmt none :=
    fun _ _ => rfl
  rw [← h6] at this
  rw [← e]
  exact this

theorem time_chars {t : ℤ} (h : Clock t) : (dateStr t).length = 10 ∧ (todStr t).length = 8 ∧
    (∀ c ∈ dateStr t, isWs c = false) ∧ ∀ c ∈ todStr t, isWs c = false := by
  obtain ⟨y, m, d, hh, mi, s, h2, h3, h4, h5, h6, h7, h8⟩ := clock_parts h
  have hd : d < 100 := lt_of_le_of_lt (day_le h2.2.2.1 h2.2.2.2.1 h2.2.2.2.2.2) (by norm_num)
  have hm : m < 100 := by have := h2.2.2.2.1; omega
  have dg : ∀ {n : ℕ}, n < 100 → ∀ c ∈ pad2 n, isWs c = false := fun hn c hc => (digs_ne (pad2_spec hn).2.1 c hc).2.2.2
  rw [h7, h8]
  refine ⟨by simp [dateText, pad4, pad2], by simp [pad2], ?_, ?_⟩
  · intro c hc
    simp only [dateText, List.mem_append, List.mem_cons] at hc
    rcases hc with hc | rfl | hc | rfl | hc
    · exact (digs_ne (pad4_spec (n := y) (by have := h2.2.1; omega)).2.1 c hc).2.2.2
    · decide
    · exact dg hm c hc
    · decide
    · exact dg hd c hc
  · intro c hc
    simp only [List.mem_append, List.mem_cons] at hc
    rcases hc with hc | rfl | hc | rfl | hc
    · exact dg (by omega) c hc
    · decide
    · exact dg (by omega) c hc
    · decide
    · exact dg (by omega) c hc

/-! ### Reading the files back -/

/-- What the conversion of texts to numbers does: plain decimal texts give the nearest double, `nan` gives NaN.  Library
behaviour of Python. -/
structure ReadsFloat (float : Conv) : Prop where
  plain : ∀ w v, plain w = some v → float w = some (some (toDouble v))
  nan : float "nan".toList = some none

/-- A value read for a number that was written with `k` decimals: NaN for NaN, else the number to half a unit, and to the
rounding of the double that is read -/
def Near (k : ℕ) (x : F) (v : Ascii.Val) : Prop :=
  (x = none ∧ v = .num none) ∨
    ∃ a b : ℝ, x = some a ∧ v = .num (some b) ∧ |b - a| ≤ 1 / 2 / 10 ^ k + 2 ^ (-52 : ℤ) * (|a| + 1)

theorem fixedF_word (k : ℕ) (x : F) : fixedF k x ≠ [] ∧ ∀ c ∈ fixedF k x, isWs c = false := by
  cases x with
  | none => exact ⟨show "nan".toList ≠ [] by decide, show ∀ c ∈ "nan".toList, isWs c = false by decide⟩
  | some x => exact ⟨(fixed_chars x).1, fun c hc => ((fixed_chars x).2 c hc).2⟩

theorem toDouble_close (v : ℝ) : |toDouble v - v| ≤ 2 ^ (-53 : ℤ) * (|v| + 1) := by
  have h := toDouble_nearest.relAbs v
  have h2 : (2 : ℝ) ^ (-1075 : ℤ) ≤ 2 ^ (-53 : ℤ) := zpow_le_zpow_right₀ (by norm_num) (by norm_num)
  linarith

theorem fixedF_read {float : Conv} (hf : ReadsFloat float) {k : ℕ} (hk : 1 ≤ k) (x : F) :
    ∃ v, Ascii.cast float .float (fixedF k x) = .ok v ∧ Near k x v := by
  cases x with
  | none => exact ⟨.num none, by simp only [Ascii.cast, Vort.toFloat, fixedF, hf.nan, Except.map], .inl ⟨rfl, rfl⟩⟩
  | some a =>
    have h1 := hf.plain _ _ (fixed_plain hk a)
    refine ⟨.num (some (toDouble (written k a))), by simp [Ascii.cast, Vort.toFloat, fixedF, h1, Except.map],
      .inr ⟨a, _, rfl, rfl, ?_⟩⟩
    have h2 := toDouble_close (written k a)
    have h3 := written_near k a
    have h4 : |written k a| ≤ |a| + 1 := by
      have := abs_sub_abs_le_abs_sub (written k a) a
      have h10 : (1 : ℝ) / 2 / 10 ^ k ≤ 1 := by
        rw [div_le_one (by positivity)]
        linarith [one_le_pow₀ (show (1 : ℝ) ≤ 10 by norm_num) (n := k)]
      linarith
    have h5 : (2 : ℝ) ^ (-53 : ℤ) * (|written k a| + 1) ≤ 2 ^ (-52 : ℤ) * (|a| + 1) := by
      have e : (2 : ℝ) ^ (-52 : ℤ) = 2 ^ (-53 : ℤ) * 2 := by
        rw [show (-52 : ℤ) = -53 + 1 by norm_num, zpow_add₀ (by norm_num)]; norm_num
      rw [e, mul_assoc]
      refine mul_le_mul_of_nonneg_left ?_ (by positivity)
      linarith [abs_nonneg a]
    have := abs_add_le (toDouble (written k a) - written k a) (written k a - a)
    rw [sub_add_sub_cancel] at this
    exact this.trans ((add_le_add (h2.trans h5) h3).trans (add_comm _ _).le)

/-- The arguments for reading the output files: one header line, date and time of day in the first two columns in the default
format -/
def backArgs (strCols : List ℕ) : Ascii.Args := ⟨1, none, none, [0, 1], some stdFmt, [], strCols, 50, []⟩

/-- The name of the column of the times -/
def timeName : Name := "datetime".toList

theorem forall₂_eq_map {α β : Type} {g : α → β} : ∀ {l : List α} {m : List β}, List.Forall₂ (fun a b => b = g a) l m → m = l.map g
  | _, _, .nil => rfl
  | _, _, .cons h t => by rw [h, forall₂_eq_map t]; rfl

/-- Reading a table whose rows start with date and time of day -/
theorem table_back {float : Conv} {sc : List ℕ} {f : Ascii.File} (hg : f.good = true) {names : List Name} {tys : List Ascii.Ty}
    (hkeys : Ascii.keyList (backArgs sc) (Ascii.moreHeader (backArgs sc) f) = names) (hn : names.Nodup)
    (hfree : timeName ∉ names) (hlen : 3 ≤ names.length)
    (htys : Ascii.colTys (backArgs sc) [] names.length = .ok tys) {ρ : Type} {rows : List ρ} {time : ρ → ℤ}
    {rest : ρ → List Name} (hrows : f.rows = rows.map fun r => dateStr (time r) :: todStr (time r) :: rest r)
    (h2 : 2 ≤ rows.length) (hclock : ∀ r ∈ rows, Clock (time r)) (hrest : ∀ r ∈ rows, (rest r).length + 2 = names.length)
    (hcast : ∀ r ∈ rows, ∀ (j : ℕ) w ty, (rest r)[j]? = some w → tys[j + 2]? = some ty → ∃ v, Ascii.cast float ty w = .ok v) :
    ∃ r, Ascii.load float (backArgs sc) f = .ok r ∧ r.keys = names ++ [timeName] ∧
      r.out timeName = rows.map (fun r => .time (time r)) ∧
      ∀ (j : ℕ) k ty, names[j]? = some k → tys[j]? = some ty → Ascii.Column float ty (f.rows.map (·[j]?)) (r.out k) := by
  have hh : Ascii.moreHeader (backArgs sc) f ≠ [] := by simp [Ascii.moreHeader, backArgs]
  have hints : Ascii.moreInts (backArgs sc) = .ok [] := by
    have e1 : Ascii.wordCol stdFmt "YEAR".toList = .ok [] := by decide
    have e2 : Ascii.wordCol stdFmt "SOY".toList = .ok [] := by decide
    simp only [Ascii.moreInts, backArgs, e1, e2, bind, Except.bind, pure, Except.pure, List.append_nil]
  have hslen : Ascii.strLen (backArgs sc) = 50 := by
    have : fmtLen stdFmt ≤ 50 := by decide
    simp [Ascii.strLen, backArgs, this]
  have htk : Ascii.timeKey (backArgs sc) names = .ok (some (timeName, stdFmt)) := by
    have : Ascii.freeKey names Ascii.dtKeys = .ok timeName := by
      simp only [Ascii.dtKeys, Ascii.freeKey]
      rw [if_neg (show "datetime".toList ∉ names from hfree)]
      rfl
    simp [Ascii.timeKey, backArgs, this, Except.map]
  obtain ⟨c1, c2⟩ := Ascii.colTys_get htys
  have hparts : Ascii.parts (some stdFmt) = ["%Y-%m-%d".toList, "%H:%M:%S".toList] := by decide
  have t0 : tys[0]? = some (.str 50) := by
    have := Ascii.text_cols (c := 0) (i := 0) (p := "%Y-%m-%d".toList) htys (fmt := stdFmt) rfl rfl
      (by show (Ascii.parts (some stdFmt))[0]? = _; rw [hparts]; rfl) (by decide) (by simp)
    rwa [hslen] at this
  have t1 : tys[1]? = some (.str 50) := by
    have := Ascii.text_cols (c := 1) (i := 1) (p := "%H:%M:%S".toList) htys (fmt := stdFmt) rfl rfl
      (by show (Ascii.parts (some stdFmt))[1]? = _; rw [hparts]; rfl) (by decide) (by simp)
    rwa [hslen] at this
  have hlines : Ascii.toLines f.rows = .ok (f.rows.map .row) := by
    have hall : ∀ x ∈ f.rows, x.length = names.length := by
      intro x hx
      rw [hrows] at hx
      obtain ⟨r, hr, rfl⟩ := List.mem_map.1 hx
      rw [← hrest r hr]
      rfl
    have hl2 : 2 ≤ f.rows.length := by rw [hrows, List.length_map]; exact h2
    match hfr : f.rows, hl2 with
    | r :: r' :: rs, _ =>
      rw [hfr] at hall
      have hl : r.length = names.length := hall r (by simp)
      have ha : (r' :: rs).all (fun x => x.length == r.length) = true := by
        rw [List.all_eq_true]
        intro x hx
        rw [beq_iff_eq, hl]
        exact hall x (List.mem_cons_of_mem _ hx)
      simp only [Ascii.toLines, ha, if_true]
      match r, hl with
      | [], hl => simp at hl; omega
      | [_], hl => simp at hl; omega
      | _ :: _ :: _, _ => rfl
  have take50 : ∀ {w : Name}, w.length ≤ 50 → w.take 50 = w := fun h => List.take_of_length_le h
  obtain ⟨r, a1, a2, a3⟩ := Ascii.load_succeeds (float := float) hg hh hints (by rw [hkeys]; exact htys)
    (by rw [hkeys]; exact htk) hlines (by
      intro he
      have := congrArg List.length he
      rw [List.length_map, hrows, List.length_map, List.length_nil] at this
      omega) (by rw [hkeys]; exact hn) (by
      rw [hkeys]
      intro l hl x hx
      obtain ⟨row, hrow, rfl⟩ := List.mem_map.1 hl
      rw [hrows] at hrow
      obtain ⟨r, hr, rfl⟩ := List.mem_map.1 hrow
      obtain ⟨k, j⟩ := x
      rw [List.mem_zipIdx_iff_getElem?] at hx
      simp only at hx
      have hj := (List.getElem?_eq_some_iff.1 hx).1
      match j, hj with
      | 0, _ => exact ⟨_, _, _, rfl, t0, rfl⟩
      | 1, _ => exact ⟨_, _, _, rfl, t1, rfl⟩
      | j + 2, hj =>
        have hjr : j < (rest r).length := by have := hrest r hr; omega
        have hty := c2 (j + 2) hj
        obtain ⟨v, hv⟩ := hcast r hr j _ _ (List.getElem?_eq_getElem hjr) hty
        exact ⟨(rest r)[j], _, v, by simp [Ascii.fetch, hjr], hty, hv⟩) (by
      intro l hl d hd
      obtain ⟨row, hrow, rfl⟩ := List.mem_map.1 hl
      rw [hrows] at hrow
      obtain ⟨r, hr, rfl⟩ := List.mem_map.1 hrow
      rw [Option.mem_some_iff] at hd
      subst hd
      obtain ⟨q1, q2, -, -⟩ := time_chars (hclock r hr)
      refine ⟨{ Ascii.TimeIn.empty with date := some (.txt (dateStr (time r))), tod := some (.txt (todStr (time r))) },
        time r, ?_, ?_⟩
      · show Ascii.gather float tys (Ascii.parts (some stdFmt)) _ [(0, 0), (1, 1)] _ = _
        rw [hparts]
        have w1 : (dateStr (time r)).take 50 = dateStr (time r) := take50 (by omega)
        have w2 : (todStr (time r)).take 50 = todStr (time r) := take50 (by omega)
        have y1 : 'Y' ∉ Ascii.timeLetters := by decide
        have y2 : 'H' ∈ Ascii.timeLetters := by decide
        simp [Ascii.gather, Ascii.fetchDate, t0, t1, Ascii.cast, w1, w2, Ascii.addPart, y1, y2, Ascii.join, Ascii.TimeIn.empty,
          bind, Except.bind, Except.map]
      · exact time_back (hclock r hr))
  rw [hkeys] at a2
  refine ⟨r, a1, a2, ?_, ?_⟩
  · have hcol : ∀ row ∈ f.rows, 2 ≤ row.length := by
      intro row hrow
      rw [hrows] at hrow
      obtain ⟨r, hr, rfl⟩ := List.mem_map.1 hrow
      simp
    have hlast : r.timeName = timeName := by simp [Ascii.Res.timeName, a2]
    have hin : r.intCols = [] := by
      obtain ⟨ints, -, -, -, b1, -, -, -, -, -, b7, -⟩ := Ascii.load_ok a1 hg hh
      rw [b7]
      rw [hints] at b1
      exact (Except.ok.inj b1).symm
    have hsplit : stdFmt.splitOn ' ' = ["%Y-%m-%d".toList, "%H:%M:%S".toList] := by decide
    have := Ascii.C101_time_partial a1 hg hh (by rw [hrows, List.length_map]; exact h2) hcol a3 (fmt := stdFmt) rfl
      (dates := [0]) (tods := [1]) (by simp) (by simp) rfl (by
        intro i hi
        have : i = 0 := by simpa using hi
        subst this
        exact ⟨_, by rw [hsplit]; rfl, ⟨'Y', _, rfl, by decide⟩, by decide⟩) (by
        intro i hi
        have : i = 0 := by simpa using hi
        subst this
        exact ⟨_, by rw [hsplit]; rfl, ⟨'H', _, rfl, by decide⟩, by decide⟩) (by simp [hin])
    rw [hlast, hrows, Ascii.forall_map] at this
    refine forall₂_eq_map ?_
    have both : ∀ {α β : Type} {R : α → β → Prop} {l : List α} {m : List β}, List.Forall₂ R l m →
        List.Forall₂ (fun a b => a ∈ l ∧ R a b) l m := by
      intro α β R l m h
      rw [List.forall₂_iff_get] at h ⊢
      exact ⟨h.1, fun i h1 h2 => ⟨List.get_mem _ _, h.2 i h1 h2⟩⟩
    refine (both this).imp ?_
    rintro q v ⟨hq, -, x, rfl, hx⟩
    obtain ⟨q1, q2, -, -⟩ := time_chars (hclock q hq)
    have hc : Ascii.glue (Ascii.cells (dateStr (time q) :: todStr (time q) :: rest q) (Ascii.strLen (backArgs sc))
        (backArgs sc).dateCols) = dateStr (time q) ++ ' ' :: todStr (time q) := by
      rw [hslen]
      have w1 : (dateStr (time q)).take 50 = dateStr (time q) := take50 (by omega)
      have w2 : (todStr (time q)).take 50 = todStr (time q) := take50 (by omega)
      simp [Ascii.cells, backArgs, w1, w2, Ascii.glue, List.intercalate]
    rw [hc, time_back (hclock q hq)] at hx
    rw [Except.ok.inj hx]
  · intro j k ty hk hty
    have hj := (List.getElem?_eq_some_iff.1 hk).1
    have hnames : r.names (backArgs sc) = names := Ascii.names_eq htk a2
    have hin : r.intCols = [] := by
      obtain ⟨ints, -, -, -, b1, -, -, -, -, -, b7, -⟩ := Ascii.load_ok a1 hg hh
      rw [b7]
      rw [hints] at b1
      exact (Except.ok.inj b1).symm
    have := Ascii.C100_columns_partial a1 hg (.inl (by simp [backArgs])) (by rw [hrows, List.length_map]; exact h2) (by
      intro row hrow
      rw [hrows] at hrow
      obtain ⟨r, hr, rfl⟩ := List.mem_map.1 hrow
      simp) a3 (j := j) (k := k) (by rw [hnames]; exact hk)
    rw [hin] at this
    rw [c2 j hj, Option.some.injEq] at hty
    rw [← hty]
    exact this

/-- Words with blanks between and the end of the line -/
theorem line_words {l : List Name} (h : ∀ w ∈ l, w ≠ [] ∧ ∀ c ∈ w, isWs c = false) :
    Smag.words (Ascii.glue l ++ ['\n']) = l := by
  rw [Smag.words, Ascii.words_end _ (by decide)]
  exact Ascii.words_glue l h

theorem time_words {t : ℤ} (h : Clock t) {l : List Name} (hl : ∀ w ∈ l, w ≠ [] ∧ ∀ c ∈ w, isWs c = false) :
    ∀ w ∈ dateStr t :: todStr t :: l, w ≠ [] ∧ ∀ c ∈ w, isWs c = false := by
  obtain ⟨h1, h2, h3, h4⟩ := time_chars h
  intro w hw
  rcases List.mem_cons.1 hw with rfl | hw
  · exact ⟨by intro e; rw [e] at h1; simp at h1, h3⟩
  rcases List.mem_cons.1 hw with rfl | hw
  · exact ⟨by intro e; rw [e] at h2; simp at h2, h4⟩
  · exact hl w hw

theorem glue_extra : ∀ (l : List Name) (m : List Name), m ≠ [] →
    Ascii.glue (l ++ m) = (l.flatMap fun w => w ++ [' ']) ++ Ascii.glue m
  | [], m, _ => rfl
  | w :: l, m, hm => by
    rw [List.cons_append, Ascii.glue_cons w (by simp [hm]), glue_extra l m hm]
    simp

/-- The words of a line of the vorticity file -/
theorem vort_words {r : VortOut.Row} (h : Clock r.time) {extra : List Name}
    (he : ∀ w ∈ extra, w ≠ [] ∧ ∀ c ∈ w, isWs c = false) :
    Smag.words (vortLine extra r) = dateStr r.time :: todStr r.time :: (extra ++
      [fixedF 2 r.lat, fixedF 6 r.mlt, fixedF 6 r.vort]) := by
  have e : vortLine extra r = Ascii.glue (dateStr r.time :: todStr r.time :: (extra ++
      [fixedF 2 r.lat, fixedF 6 r.mlt, fixedF 6 r.vort])) ++ ['\n'] := by
    rw [Ascii.glue_cons _ (by simp), Ascii.glue_cons _ (by simp), glue_extra _ _ (by simp)]
    simp [vortLine, timeStr, Ascii.glue, List.intercalate]
  rw [e]
  refine line_words (time_words h ?_)
  intro w hw
  simp only [List.mem_append, List.mem_cons, List.not_mem_nil, or_false] at hw
  rcases hw with hw | rfl | rfl | rfl
  · exact he w hw
  all_goals exact fixedF_word _ _

/-! ### C196: the file of `vort2ascii_ocb` -/

/-- C196: with `save_all` or without it, a line of the vorticity file has as many words as the header has names: date, time
of day, the added columns, and the three numbers. -/
theorem C196_aligned {r : VortOut.Row} (h : Clock r.time) {keys extra : List Name} (hl : keys.length = extra.length)
    (hk : ∀ w ∈ keys, w ≠ [] ∧ ∀ c ∈ w, isWs c = false) (he : ∀ w ∈ extra, w ≠ [] ∧ ∀ c ∈ w, isWs c = false)
    (hne : keys ≠ []) :
    Smag.words (vortHead (some keys)) = "#DATE".toList :: "TIME".toList :: (keys ++
      ["OCB_LAT".toList, "OCB_MLT".toList, "NORM_VORT".toList]) ∧
    Smag.words (vortHead none) = ["#DATE".toList, "TIME".toList, "OCB_LAT".toList, "OCB_MLT".toList, "NORM_VORT".toList] ∧
    (Smag.words (vortLine extra r)).length = (Smag.words (vortHead (some keys))).length ∧
    (Smag.words (vortLine [] r)).length = (Smag.words (vortHead none)).length := by
  have h1 : Smag.words (vortHead (some keys)) = "#DATE".toList :: "TIME".toList :: (keys ++
      ["OCB_LAT".toList, "OCB_MLT".toList, "NORM_VORT".toList]) := by
    have e : vortHead (some keys) = Ascii.glue ("#DATE".toList :: "TIME".toList :: (keys ++
        ["OCB_LAT".toList, "OCB_MLT".toList, "NORM_VORT".toList])) ++ ['\n'] := by
      have e1 : "#DATE TIME".toList = "#DATE".toList ++ ' ' :: "TIME".toList := by decide
      have e2 : "OCB_LAT OCB_MLT NORM_VORT\n".toList = Ascii.glue ["OCB_LAT".toList, "OCB_MLT".toList, "NORM_VORT".toList] ++
          ['\n'] := by decide
      have gen : ∀ (a b : Name) (m : List Name), m ≠ [] → Ascii.glue (a :: b :: (keys ++ m)) ++ ['\n'] =
          (a ++ ' ' :: b) ++ ' ' :: List.intercalate [' '] keys ++ ' ' :: (Ascii.glue m ++ ['\n']) := by
        intro a b m hm
        rw [Ascii.glue_cons a (by simp), Ascii.glue_cons b (by simp [hne]), Ascii.glue_append hne hm]
        simp [Ascii.glue]
      rw [gen _ _ _ (List.cons_ne_nil _ _), ← e1, ← e2]
      rfl
    rw [e]
    refine line_words ?_
    intro w hw
    simp only [List.mem_append, List.mem_cons, List.not_mem_nil, or_false] at hw
    rcases hw with rfl | rfl | hw | rfl | rfl | rfl
    · decide
    · decide
    · exact hk w hw
    all_goals decide
  have h2 : Smag.words (vortHead none) = ["#DATE".toList, "TIME".toList, "OCB_LAT".toList, "OCB_MLT".toList,
      "NORM_VORT".toList] := by decide
  refine ⟨h1, h2, ?_, ?_⟩
  · rw [h1, vort_words h he]
    simp [hl]
  · rw [h2, vort_words h (by simp)]
    rfl

/-- C196 as far as it holds: the file that `vort2ascii_ocb` writes for at least two rows, with times of whole seconds,
is read back by `load_ascii_data`: the times are the same, and the numbers are those of the rows, to half a
unit of the last decimal and the rounding of doubles. -/
theorem C196_vort_partial {float : Conv} (hf : ReadsFloat float) {rows : List VortOut.Row} (h2 : 2 ≤ rows.length)
    (ht : ∀ r ∈ rows, Clock r.time) {f : Ascii.File} (hg : f.good = true) (hl : f.lines = vortLines rows)
    (hr : f.rows = (f.lines.drop 1).map Smag.words) :
    ∃ out, Ascii.load float (backArgs []) f = .ok out ∧
      out.keys = ["DATE".toList, "TIME".toList, "OCB_LAT".toList, "OCB_MLT".toList, "NORM_VORT".toList, timeName] ∧
      out.out timeName = rows.map (fun r => .time r.time) ∧
      List.Forall₂ (fun r v => Near 2 r.lat v) rows (out.out "OCB_LAT".toList) ∧
      List.Forall₂ (fun r v => Near 6 r.mlt v) rows (out.out "OCB_MLT".toList) ∧
      List.Forall₂ (fun r v => Near 6 r.vort v) rows (out.out "NORM_VORT".toList) := by
  have hrows : f.rows = rows.map fun r => dateStr r.time :: todStr r.time ::
      [fixedF 2 r.lat, fixedF 6 r.mlt, fixedF 6 r.vort] := by
    rw [hr, hl, vortLines, List.drop_one, List.tail_cons, List.map_map]
    refine List.map_congr_left fun r hr => ?_
    exact vort_words (ht r hr) (by simp)
  have hkeys : Ascii.keyList (backArgs []) (Ascii.moreHeader (backArgs []) f) =
      ["DATE".toList, "TIME".toList, "OCB_LAT".toList, "OCB_MLT".toList, "NORM_VORT".toList] := by
    have e : Ascii.moreHeader (backArgs []) f = [Ascii.strip (vortHead none)] := by
      simp [Ascii.moreHeader, backArgs, hl, vortLines]
    rw [e]
    decide
  have htys : Ascii.colTys (backArgs []) [] 5 = .ok [.str 50, .str 50, .float, .float, .float] := by decide
  obtain ⟨out, o1, o2, o3, o4⟩ := table_back (float := float) hg hkeys (by decide) (by decide) (by decide) htys
    (time := fun r : VortOut.Row => r.time) hrows h2 ht (fun r _ => rfl) (by
      intro r _ j w ty hw hty
      match j, hw, hty with
      | 0, hw, hty => cases hw; cases hty; exact (fixedF_read hf (by norm_num) _).imp fun v h => h.1
      | 1, hw, hty => cases hw; cases hty; exact (fixedF_read hf (by norm_num) _).imp fun v h => h.1
      | 2, hw, hty => cases hw; cases hty; exact (fixedF_read hf (by norm_num) _).imp fun v h => h.1
      | j + 3, hw, _ => simp at hw)
  have col : ∀ (j : ℕ) (k : Name) (d : ℕ) (g : VortOut.Row → F), 1 ≤ d →
      (["DATE".toList, "TIME".toList, "OCB_LAT".toList, "OCB_MLT".toList, "NORM_VORT".toList])[j]? = some k →
      ([.str 50, .str 50, .float, .float, .float] : List Ascii.Ty)[j]? = some .float →
      (∀ r : VortOut.Row, (dateStr r.time :: todStr r.time :: [fixedF 2 r.lat, fixedF 6 r.mlt, fixedF 6 r.vort])[j]? =
        some (fixedF d (g r))) → List.Forall₂ (fun r v => Near d (g r) v) rows (out.out k) := by
    intro j k d g hd hk hty hcell
    have := o4 j k _ hk hty
    rw [hrows, Ascii.Column, List.map_map, Ascii.forall_map] at this
    refine this.imp ?_
    rintro r v ⟨w, hw, hc⟩
    rw [Function.comp_apply, hcell r, Option.some.injEq] at hw
    subst hw
    obtain ⟨v', c1, c2⟩ := fixedF_read hf hd (g r)
    rw [c1] at hc
    rw [← Except.ok.inj hc]
    exact c2
  exact ⟨out, o1, o2, o3, col 2 _ 2 (fun r => r.lat) (by norm_num) rfl rfl fun r => rfl,
    col 3 _ 6 (fun r => r.mlt) (by norm_num) rfl rfl fun r => rfl,
    col 4 _ 6 (fun r => r.vort) (by norm_num) rfl rfl fun r => rfl⟩

theorem few_back {float : Conv} {sc : List ℕ} {f : Ascii.File} (hg : f.good = true)
    (hkeys : Ascii.keyList (backArgs sc) (Ascii.moreHeader (backArgs sc) f) ≠ [])
    (hn : (Ascii.keyList (backArgs sc) (Ascii.moreHeader (backArgs sc) f)).Nodup)
    (h1 : f.rows.length ≤ 1) (hr : ∀ r ∈ f.rows, ∃ c w ws, r = (c :: w) :: ws) (out : Ascii.Res) :
    Ascii.load float (backArgs sc) f ≠ .ok out := by
  have hh : Ascii.moreHeader (backArgs sc) f ≠ [] := by simp [Ascii.moreHeader, backArgs]
  match hf : f.rows, h1 with
  | [], _ => exact Ascii.C105_no_rows_refuted hg hh hf hkeys out
  | [r], _ =>
    intro h
    obtain ⟨ints, tys, dt, lines, a1, a2, a3, a4, a5, -, -, a8, -⟩ := Ascii.load_ok h hg hh
    obtain ⟨c, w, ws, rfl⟩ := hr r (by simp [hf])
    rw [hf] at a4
    have hl := (Ascii.lines_one a4).1
    have hfr := a3
    simp only [Ascii.timeKey, backArgs, List.cons_ne_nil, if_false] at hfr
    cases hk : Ascii.freeKey (Ascii.keyList (backArgs sc) (Ascii.moreHeader (backArgs sc) f)) Ascii.dtKeys with
    | error e =>
      simp only [backArgs] at hk
      simp [hk, Except.map] at hfr
    | ok k =>
      have hdt : dt = some (k, stdFmt) := by
        simp only [backArgs] at hk
        simpa [hk, Except.map] using hfr.symm
      subst hdt
      have hnd : (Ascii.keyList (backArgs sc) (Ascii.moreHeader (backArgs sc) f) ++ [k]).Nodup := by
        rw [List.nodup_append]
        refine ⟨hn, by simp, ?_⟩
        intro x hx y hy he
        rw [List.mem_singleton] at hy
        subst hy he
        exact (Ascii.freeKey_ok hk).1 hx
      obtain ⟨vs, -, b2⟩ := Ascii.addRows_time hnd a5
      rw [hl, List.map_cons] at b2
      cases b2 with
      | cons h _ =>
        obtain ⟨ti, x, g1, -, -⟩ := h
        simp [Ascii.gather, backArgs, Ascii.fetchDate, bind, Except.bind] at g1

theorem time_first {t : ℤ} (h : Clock t) (ws : List Name) : ∃ c w vs, dateStr t :: ws = (c :: w) :: vs := by
  obtain ⟨h1, -⟩ := time_chars h
  match hd : dateStr t with
  | [] => rw [hd] at h1; simp at h1
  | c :: w => exact ⟨c, w, ws, rfl⟩

/-- C196 is false for a file with a single row, or none: it is not read back, whatever the row is. -/
theorem C196_one_row_refuted {float : Conv} {rows : List VortOut.Row} (h1 : rows.length ≤ 1)
    (ht : ∀ r ∈ rows, Clock r.time) {f : Ascii.File} (hg : f.good = true) (hl : f.lines = vortLines rows)
    (hr : f.rows = (f.lines.drop 1).map Smag.words) (out : Ascii.Res) : Ascii.load float (backArgs []) f ≠ .ok out := by
  have hrows : f.rows = rows.map fun r => dateStr r.time :: todStr r.time ::
      [fixedF 2 r.lat, fixedF 6 r.mlt, fixedF 6 r.vort] := by
    rw [hr, hl, vortLines, List.drop_one, List.tail_cons, List.map_map]
    refine List.map_congr_left fun r hr => ?_
    exact vort_words (ht r hr) (by simp)
  have hkeys : Ascii.keyList (backArgs []) (Ascii.moreHeader (backArgs []) f) =
      ["DATE".toList, "TIME".toList, "OCB_LAT".toList, "OCB_MLT".toList, "NORM_VORT".toList] := by
    have e : Ascii.moreHeader (backArgs []) f = [Ascii.strip (vortHead none)] := by
      simp [Ascii.moreHeader, backArgs, hl, vortLines]
    rw [e]
    decide
  refine few_back hg (by rw [hkeys]; simp) (by rw [hkeys]; decide) (by rw [hrows, List.length_map]; exact h1) ?_ out
  intro r hr
  rw [hrows] at hr
  obtain ⟨q, hq, rfl⟩ := List.mem_map.1 hr
  exact time_first (ht q hq) _

/-! ### C197: the file of `supermag2ascii_ocb` -/

/-- The numbers of a row in the order of the columns, behind the solar zenith angle -/
def smagNums (r : SmagOut.Row) : List F :=
  [r.sza, r.lat, r.lt, r.mag, r.n, r.e, r.z, r.ocbLat, r.ocbMlt, r.ocbMag, r.ocbN, r.ocbE, r.ocbZ]

/-- The words of a line behind date and time -/
noncomputable def smagRest (r : SmagOut.Row) : List Name :=
  [decInt r.nst, r.id, decInt r.sml, decInt r.smu] ++ (smagNums r).map (fixedF 2)

theorem decInt_word (z : ℤ) : decInt z ≠ [] ∧ ∀ c ∈ decInt z, isWs c = false := by
  obtain ⟨h1, h2, h3⟩ := dec_spec z.natAbs
  unfold decInt
  split
  · refine ⟨by simp, fun c hc => ?_⟩
    rcases List.mem_cons.1 hc with rfl | hc
    · decide
    · exact (digs_ne h2 c hc).2.2.2
  · exact ⟨h3, fun c hc => (digs_ne h2 c hc).2.2.2⟩

/-- The words of a line of the SuperMAG file -/
theorem smag_words {r : SmagOut.Row} (h : Clock r.time) (hid : r.id ≠ [] ∧ ∀ c ∈ r.id, isWs c = false) :
    Smag.words (smagLine r) = dateStr r.time :: todStr r.time :: smagRest r := by
  have e : smagLine r = Ascii.glue (dateStr r.time :: todStr r.time :: smagRest r) ++ ['\n'] := by
    simp [smagLine, timeStr, smagRest, smagNums, Ascii.glue, List.intercalate]
  rw [e]
  refine line_words (time_words h ?_)
  intro w hw
  simp only [smagRest, List.mem_append, List.mem_cons, List.not_mem_nil, or_false, List.mem_map] at hw
  rcases hw with (rfl | rfl | rfl | rfl) | ⟨x, -, rfl⟩
  · exact decInt_word _
  · exact hid
  · exact decInt_word _
  · exact decInt_word _
  · exact fixedF_word _ _

/-- The names of the columns of the SuperMAG file -/
def smagNames : List Name :=
  ["DATE".toList, "TIME".toList, "NST".toList, "STID".toList, "SML".toList, "SMU".toList, "SZA".toList, "MLAT".toList,
   "MLT".toList, "BMAG".toList, "BN".toList, "BE".toList, "BZ".toList, "OCB_MLAT".toList, "OCB_MLT".toList,
   "OCB_BMAG".toList, "OCB_BN".toList, "OCB_BE".toList, "OCB_BZ".toList]

/-- The types of these columns -/
def smagTys : List Ascii.Ty := [.str 50, .str 50, .float, .str 50] ++ List.replicate 15 .float

theorem smag_rows {rows : List SmagOut.Row} (ht : ∀ r ∈ rows, Clock r.time)
    (hid : ∀ r ∈ rows, r.id ≠ [] ∧ ∀ c ∈ r.id, isWs c = false) {f : Ascii.File} (hl : f.lines = smagLines rows)
    (hr : f.rows = (f.lines.drop 1).map Smag.words) :
    f.rows = rows.map fun r => dateStr r.time :: todStr r.time :: smagRest r := by
  rw [hr, hl, smagLines, List.drop_one, List.tail_cons, List.map_map]
  exact List.map_congr_left fun r hr => smag_words (ht r hr) (hid r hr)

theorem smag_keys {rows : List SmagOut.Row} {f : Ascii.File} (hl : f.lines = smagLines rows) :
    Ascii.keyList (backArgs [3]) (Ascii.moreHeader (backArgs [3]) f) = smagNames := by
  have e : Ascii.moreHeader (backArgs [3]) f = [Ascii.strip smagHead] := by
    simp [Ascii.moreHeader, backArgs, hl, smagLines]
  rw [e]
  decide

theorem int_read {float : Conv} (hf : ReadsFloat float) (z : ℤ) :
    Ascii.cast float .float (decInt z) = .ok (.num (some (toDouble z))) := by
  simp only [Ascii.cast, Vort.toFloat, hf.plain _ _ (plain_int z), Except.map]

/-- C197 as far as it holds: the file that `supermag2ascii_ocb` writes for at least two rows, with times of whole seconds
and names of stations of at most 50 letters, is read back by `load_ascii_data` with the names as texts: the
times and the names are the same, the counts and indices are the nearest doubles, and each number is in the column of its
name, to half a hundredth and the rounding of doubles. -/
theorem C197_smag_partial {float : Conv} (hf : ReadsFloat float) {rows : List SmagOut.Row} (h2 : 2 ≤ rows.length)
    (ht : ∀ r ∈ rows, Clock r.time) (hid : ∀ r ∈ rows, r.id ≠ [] ∧ ∀ c ∈ r.id, isWs c = false)
    (h50 : ∀ r ∈ rows, r.id.length ≤ 50) {f : Ascii.File} (hg : f.good = true) (hl : f.lines = smagLines rows)
    (hr : f.rows = (f.lines.drop 1).map Smag.words) :
    ∃ out, Ascii.load float (backArgs [3]) f = .ok out ∧ out.keys = smagNames ++ [timeName] ∧
      out.out timeName = rows.map (fun r => .time r.time) ∧
      out.out "STID".toList = rows.map (fun r => .txt r.id) ∧
      out.out "NST".toList = rows.map (fun r => .num (some (toDouble r.nst))) ∧
      out.out "SML".toList = rows.map (fun r => .num (some (toDouble r.sml))) ∧
      out.out "SMU".toList = rows.map (fun r => .num (some (toDouble r.smu))) ∧
      ∀ p ∈ [("SZA".toList, fun r : SmagOut.Row => r.sza), ("MLAT".toList, fun r => r.lat), ("MLT".toList, fun r => r.lt),
        ("BMAG".toList, fun r => r.mag), ("BN".toList, fun r => r.n), ("BE".toList, fun r => r.e), ("BZ".toList, fun r => r.z),
        ("OCB_MLAT".toList, fun r => r.ocbLat), ("OCB_MLT".toList, fun r => r.ocbMlt), ("OCB_BMAG".toList, fun r => r.ocbMag),
        ("OCB_BN".toList, fun r => r.ocbN), ("OCB_BE".toList, fun r => r.ocbE), ("OCB_BZ".toList, fun r => r.ocbZ)],
        List.Forall₂ (fun r v => Near 2 (p.2 r) v) rows (out.out p.1) := by
  have hrows := smag_rows ht hid hl hr
  have htys : Ascii.colTys (backArgs [3]) [] smagNames.length = .ok smagTys := by decide
  obtain ⟨out, o1, o2, o3, o4⟩ := table_back (float := float) hg (smag_keys hl) (by decide) (by decide) (by decide) htys
    (time := fun r : SmagOut.Row => r.time) hrows h2 ht (fun r _ => rfl) (by
      intro r _ j w ty hw hty
      match j, hw, hty with
      | 0, hw, hty => cases hw; cases hty; exact ⟨_, int_read hf _⟩
      | 1, hw, hty => cases hw; cases hty; exact ⟨_, rfl⟩
      | 2, hw, hty => cases hw; cases hty; exact ⟨_, int_read hf _⟩
      | 3, hw, hty => cases hw; cases hty; exact ⟨_, int_read hf _⟩
      | j + 4, hw, hty =>
        have hty' : ty = .float := by
          have : (List.replicate 13 Ascii.Ty.float)[j]? = some ty := hty
          exact List.eq_of_mem_replicate (List.mem_of_getElem? this)
        have hw' : ((smagNums r).map (fixedF 2))[j]? = some w := hw
        obtain ⟨x, -, rfl⟩ := List.mem_map.1 (List.mem_of_getElem? hw')
        subst hty'
        exact (fixedF_read hf (by norm_num) _).imp fun v h => h.1)
  have both : ∀ {α β : Type} {R : α → β → Prop} {l : List α} {m : List β}, List.Forall₂ R l m →
      List.Forall₂ (fun a b => a ∈ l ∧ R a b) l m := by
    intro α β R l m h
    rw [List.forall₂_iff_get] at h ⊢
    exact ⟨h.1, fun i h1 h2 => ⟨List.get_mem _ _, h.2 i h1 h2⟩⟩
  have raw : ∀ (j : ℕ) (k : Name) (ty : Ascii.Ty) (g : SmagOut.Row → Name), smagNames[j]? = some k → smagTys[j]? = some ty →
      (∀ r : SmagOut.Row, (dateStr r.time :: todStr r.time :: smagRest r)[j]? = some (g r)) →
      List.Forall₂ (fun r v => r ∈ rows ∧ Ascii.cast float ty (g r) = .ok v) rows (out.out k) := by
    intro j k ty g hk hty hcell
    have := o4 j k _ hk hty
    rw [hrows, Ascii.Column, List.map_map, Ascii.forall_map] at this
    refine (both this).imp ?_
    rintro r v ⟨hr, w, hw, hc⟩
    rw [Function.comp_apply, hcell r, Option.some.injEq] at hw
    subst hw
    exact ⟨hr, hc⟩
  have ints : ∀ (j : ℕ) (k : Name) (g : SmagOut.Row → ℤ), smagNames[j]? = some k → smagTys[j]? = some .float →
      (∀ r : SmagOut.Row, (dateStr r.time :: todStr r.time :: smagRest r)[j]? = some (decInt (g r))) →
      out.out k = rows.map (fun r => .num (some (toDouble (g r)))) := by
    intro j k g hk hty hcell
    refine forall₂_eq_map ((raw j k _ _ hk hty hcell).imp ?_)
    rintro r v ⟨-, hc⟩
    rw [int_read hf] at hc
    exact (Except.ok.inj hc).symm
  have nums : ∀ (j : ℕ) (k : Name) (g : SmagOut.Row → F), smagNames[j]? = some k → smagTys[j]? = some .float →
      (∀ r : SmagOut.Row, (dateStr r.time :: todStr r.time :: smagRest r)[j]? = some (fixedF 2 (g r))) →
      List.Forall₂ (fun r v => Near 2 (g r) v) rows (out.out k) := by
    intro j k g hk hty hcell
    refine (raw j k _ _ hk hty hcell).imp ?_
    rintro r v ⟨-, hc⟩
    obtain ⟨v', c1, c2⟩ := fixedF_read hf (k := 2) (by norm_num) (g r)
    rw [c1] at hc
    rw [← Except.ok.inj hc]
    exact c2
  refine ⟨out, o1, o2, o3, ?_, ?_, ints 4 _ (fun r => r.sml) rfl rfl fun r => rfl,
    ints 5 _ (fun r => r.smu) rfl rfl fun r => rfl, ?_⟩
  · refine forall₂_eq_map ((raw 3 _ (.str 50) (fun r => r.id) rfl rfl fun r => rfl).imp ?_)
    rintro r v ⟨hr, hc⟩
    simp only [Ascii.cast, List.take_of_length_le (h50 r hr), Except.ok.injEq] at hc
    exact hc.symm
  · have := ints 2 "NST".toList (fun r => (r.nst : ℤ)) rfl rfl fun r => rfl
    simpa using this
  · intro p hp
    simp only [List.mem_cons, List.not_mem_nil, or_false] at hp
    rcases hp with rfl | rfl | rfl | rfl | rfl | rfl | rfl | rfl | rfl | rfl | rfl | rfl | rfl
    · exact nums 6 _ _ rfl rfl fun r => rfl
    · exact nums 7 _ _ rfl rfl fun r => rfl
    · exact nums 8 _ _ rfl rfl fun r => rfl
    · exact nums 9 _ _ rfl rfl fun r => rfl
    · exact nums 10 _ _ rfl rfl fun r => rfl
    · exact nums 11 _ _ rfl rfl fun r => rfl
    · exact nums 12 _ _ rfl rfl fun r => rfl
    · exact nums 13 _ _ rfl rfl fun r => rfl
    · exact nums 14 _ _ rfl rfl fun r => rfl
    · exact nums 15 _ _ rfl rfl fun r => rfl
    · exact nums 16 _ _ rfl rfl fun r => rfl
    · exact nums 17 _ _ rfl rfl fun r => rfl
    · exact nums 18 _ _ rfl rfl fun r => rfl

/-- C197 is false for a file with a single row, or none: it is not read back, whatever the row is. -/
theorem C197_one_row_refuted {float : Conv} {rows : List SmagOut.Row} (h1 : rows.length ≤ 1)
    (ht : ∀ r ∈ rows, Clock r.time) (hid : ∀ r ∈ rows, r.id ≠ [] ∧ ∀ c ∈ r.id, isWs c = false) {f : Ascii.File}
    (hg : f.good = true) (hl : f.lines = smagLines rows) (hr : f.rows = (f.lines.drop 1).map Smag.words) (out : Ascii.Res) :
    Ascii.load float (backArgs [3]) f ≠ .ok out := by
  have hrows := smag_rows ht hid hl hr
  refine few_back hg (by rw [smag_keys hl]; decide) (by rw [smag_keys hl]; decide)
    (by rw [hrows, List.length_map]; exact h1) ?_ out
  intro r hr
  rw [hrows] at hr
  obtain ⟨q, hq, rfl⟩ := List.mem_map.1 hr
  exact time_first (ht q hq) _

/-! ### Examples -/

/-- A conversion that does what is asked for -/
noncomputable def exFloat : Conv := fun w =>
  match plain w with
  | some v => some (some (toDouble v))
  | none => if w = "nan".toList then some none else none

theorem exFloat_reads : ReadsFloat exFloat where
  plain w v h := by simp [exFloat, h]
  nan := by
    have : plain "nan".toList = none := by
      simp only [plain]
      rw [if_neg]
      rintro ⟨-, h, -⟩
      revert h
      decide
    simp only [exFloat, this, if_true]

/-- 5 May 2000, noon -/
def exTime : ℤ := stamp 730245 12 0 0 0

theorem exTime_clock : Clock exTime := by
  refine ⟨by decide, by decide, by decide⟩

/-- Two rows, one with a local time that is not there -/
noncomputable def exRows : List VortOut.Row :=
  [⟨exTime, none, some 73.9951, some 5.25, some (-0.0012)⟩, ⟨exTime + 1000000, none, none, none, some 3⟩]

theorem exRows_clock : ∀ r ∈ exRows, Clock r.time := by
  intro r hr
  simp only [exRows, List.mem_cons, List.not_mem_nil, or_false] at hr
  rcases hr with rfl | rfl
  · exact exTime_clock
  · exact ⟨by decide, by decide, by decide⟩

example : ∃ out, Ascii.load exFloat (backArgs []) ⟨true, vortLines exRows, ((vortLines exRows).drop 1).map Smag.words⟩ = .ok out ∧
    out.out timeName = [.time exTime, .time (exTime + 1000000)] := by
  obtain ⟨out, h1, -, h2, -⟩ := C196_vort_partial exFloat_reads (rows := exRows) (by simp [exRows]) exRows_clock
    (f := ⟨true, vortLines exRows, ((vortLines exRows).drop 1).map Smag.words⟩) rfl rfl rfl
  exact ⟨out, h1, h2⟩

/-- A station at two times -/
noncomputable def exStations : List SmagOut.Row :=
  [⟨exTime, 1, "NAL".toList, -120, 80, some 70, some 76, some 12, some 5, some 3, some 4, some 0, some 77, some 12.5, some 5,
    some 3, some 4, some 0⟩,
   ⟨exTime + 60000000, 1, "NAL".toList, -121, 81, some 70, some 76, some 12, some 5, some 3, some 4, some 0, some 77,
    some 12.5, some 5, some 3, some 4, some 0⟩]

example : ∃ out, Ascii.load exFloat (backArgs [3]) ⟨true, smagLines exStations, ((smagLines exStations).drop 1).map Smag.words⟩ =
    .ok out ∧ out.out "STID".toList = [.txt "NAL".toList, .txt "NAL".toList] := by
  have hc : ∀ r ∈ exStations, Clock r.time ∧ r.id = "NAL".toList := by
    intro r hr
    simp only [exStations, List.mem_cons, List.not_mem_nil, or_false] at hr
    rcases hr with rfl | rfl
    · exact ⟨exTime_clock, rfl⟩
    · exact ⟨⟨by decide, by decide, by decide⟩, rfl⟩
  obtain ⟨out, h1, -, -, h2, -⟩ := C197_smag_partial exFloat_reads (rows := exStations) (by simp [exStations])
    (fun r hr => (hc r hr).1) (fun r hr => by rw [(hc r hr).2]; decide) (fun r hr => by rw [(hc r hr).2]; decide)
    (f := ⟨true, smagLines exStations, ((smagLines exStations).drop 1).map Smag.words⟩) rfl rfl rfl
  exact ⟨out, h1, h2⟩

end Ocb.OutText
