import Mathlib.Tactic.IntervalCases
import Mathlib.Tactic.Linarith
import Verif.Model.Strptime

/-!
# Lemmas on numbers as text, the calendar and `strptime`
-/

set_option autoImplicit false

namespace Ocb.Text

open Ocb.Files (Name)

/-! ### numbers -/

theorem digitChar_toNat {n : ℕ} (h : n < 10) : (digitChar n).toNat = 48 + n := by
  interval_cases n <;> rfl

theorem digitChar_dig {n : ℕ} (h : n < 10) : isDig (digitChar n) = true := by
  interval_cases n <;> rfl

theorem value_append (p : Name) (c : Char) : value (p ++ [c]) = 10 * value p + (c.toNat - 48) := by
  unfold value
  rw [List.foldl_append]
  rfl

theorem dec_spec (n : ℕ) : value (dec n) = n ∧ (dec n).all isDig = true ∧ dec n ≠ [] := by
  induction n using Nat.strongRecOn with
  | _ n ih =>
    rw [dec]
    split
    · rename_i h
      refine ⟨?_, ?_, by simp⟩
      · rw [show [digitChar n] = [] ++ [digitChar n] from rfl, value_append, digitChar_toNat h]
        simp [value]
      · simp [digitChar_dig h]
    · rename_i h
      obtain ⟨h1, h2, h3⟩ := ih (n / 10) (by omega)
      have hm : n % 10 < 10 := Nat.mod_lt _ (by norm_num)
      refine ⟨?_, ?_, by simp⟩
      · rw [value_append, digitChar_toNat hm, h1]; omega
      · rw [List.all_append, h2]; simp [digitChar_dig hm]

theorem dec_length (n k : ℕ) (hk : 1 ≤ k) : (dec n).length ≤ k ↔ n < 10 ^ k := by
  induction k, hk using Nat.le_induction generalizing n with
  | base =>
    rw [dec]
    split
    · rename_i h; simpa using h
    · rename_i h
      have := (dec_spec (n / 10)).2.2
      rw [List.length_append]
      have h1 : 0 < (dec (n / 10)).length := List.length_pos_iff.2 this
      simp only [List.length_singleton, pow_one]
      omega
  | succ k hk ih =>
    rw [dec]
    split
    · rename_i h
      have : 10 ≤ 10 ^ (k + 1) := by
        calc 10 = 10 ^ 1 := rfl
          _ ≤ 10 ^ (k + 1) := Nat.pow_le_pow_right (by norm_num) (by omega)
      simp only [List.length_singleton]
      omega
    · rw [List.length_append, List.length_singleton, Nat.add_le_add_iff_right, ih, Nat.div_lt_iff_lt_mul (by norm_num),
        pow_succ]

theorem dec_length_eq {n k : ℕ} (h : n < 10 ^ (k + 1)) (h' : 10 ^ k ≤ n ∨ k = 0) : (dec n).length = k + 1 := by
  have h1 := (dec_length n (k + 1) (by omega)).2 h
  rcases Nat.eq_zero_or_pos k with rfl | hk
  · have := List.length_pos_iff.2 (dec_spec n).2.2
    omega
  · have h2 : ¬ (dec n).length ≤ k := by
      rw [dec_length n k hk]
      rcases h' with h' | h' <;> omega
    omega

theorem pad2_spec {n : ℕ} (h : n < 100) : value (pad2 n) = n ∧ (pad2 n).all isDig = true ∧ (pad2 n).length = 2 := by
  unfold pad2
  have h1 : n / 10 < 10 := by omega
  have h2 : n % 10 < 10 := by omega
  refine ⟨?_, by simp [digitChar_dig h1, digitChar_dig h2], rfl⟩
  unfold value
  simp only [List.foldl_cons, List.foldl_nil, digitChar_toNat h1, digitChar_toNat h2]
  omega

/-- Four digits with leading zeros: how Python writes a year. -/
def pad4 (n : ℕ) : Name := [digitChar (n / 1000), digitChar (n / 100 % 10), digitChar (n / 10 % 10), digitChar (n % 10)]

theorem pad4_spec {n : ℕ} (h : n < 10000) : value (pad4 n) = n ∧ (pad4 n).all isDig = true ∧ (pad4 n).length = 4 := by
  unfold pad4
  have h1 : n / 1000 < 10 := by omega
  have h2 : n / 100 % 10 < 10 := by omega
  have h3 : n / 10 % 10 < 10 := by omega
  have h4 : n % 10 < 10 := by omega
  refine ⟨?_, by simp [digitChar_dig h1, digitChar_dig h2, digitChar_dig h3, digitChar_dig h4], rfl⟩
  unfold value
  simp only [List.foldl_cons, List.foldl_nil, digitChar_toNat h1, digitChar_toNat h2, digitChar_toNat h3, digitChar_toNat h4]
  omega

theorem pad4_length (n : ℕ) : (pad4 n).length = 4 := rfl

/-- From the year 1000 on there are no leading zeros. -/
theorem pad4_dec {n : ℕ} (h : 1000 ≤ n) (h' : n ≤ 9999) : pad4 n = dec n := by
  rw [dec, dif_neg (by omega), dec, dif_neg (by omega), dec, dif_neg (by omega), dec, dif_pos (by omega)]
  have e1 : n / 10 / 10 / 10 = n / 1000 := by omega
  have e2 : n / 10 / 10 % 10 = n / 100 % 10 := by omega
  rw [e1, e2]
  rfl

/-! ### reading a field -/

/-- The text does not go on with a digit. -/
def Stops (s : Name) : Prop := ∀ c t, s = c :: t → isDig c = false

theorem stops_nil : Stops [] := fun c t h => by simp at h

theorem stops_cons {c : Char} {t : Name} (h : isDig c = false) : Stops (c :: t) := by
  rintro c' t' h'
  rw [List.cons.injEq] at h'
  rw [← h'.1]; exact h

theorem take_long {p rest : Name} (hs : Stops rest) {k : ℕ} (hk : p.length < k) (hl : ((p ++ rest).take k).length = k) :
    ((p ++ rest).take k).all isDig = false := by
  cases rest with
  | nil => simp at hl; omega
  | cons c t =>
    rw [List.all_eq_false]
    refine ⟨c, ?_, by rw [hs c t rfl]; simp⟩
    rw [List.take_append]
    have : k - p.length ≠ 0 := by omega
    obtain ⟨m, hm⟩ := Nat.exists_eq_succ_of_ne_zero this
    rw [hm]
    simp

/-- The first way to read a number that is followed by something else takes all of it. -/
theorem field_first {lens : List ℕ} (hd : lens.Pairwise (· > ·)) {lo hi : ℕ} {p rest : Name} (hm : p.length ∈ lens)
    (hp : p.all isDig = true) (hlo : lo ≤ value p) (hhi : value p ≤ hi) (hs : Stops rest) :
    ∃ more, field lens lo hi (p ++ rest) = (value p, rest) :: more := by
  unfold field
  induction lens with
  | nil => simp at hm
  | cons k lens ih =>
    rw [List.pairwise_cons] at hd
    by_cases hk : k = p.length
    · subst hk
      rw [List.filterMap_cons]
      have e : (p ++ rest).take p.length = p := by simp
      rw [e, if_pos ⟨rfl, hp, hlo, hhi⟩]
      exact ⟨_, by rw [List.drop_left]⟩
    · have hm' : p.length ∈ lens := by
        rcases List.mem_cons.1 hm with h | h
        · exact absurd h.symm hk
        · exact h
      have hlt : p.length < k := hd.1 _ hm'
      obtain ⟨more, h⟩ := ih hd.2 hm'
      refine ⟨more, ?_⟩
      rw [List.filterMap_cons, if_neg]
      · exact h
      · rintro ⟨h1, h2, -⟩
        rw [take_long hs hlt h1] at h2
        simp at h2

/-- When a number as a whole is not of the right form, every way to read a part of it stops before a digit. -/
theorem field_fail {lens : List ℕ} {lo hi : ℕ} {p rest : Name} (hp : p.all isDig = true)
    (hbad : ¬ (p.length ∈ lens ∧ lo ≤ value p ∧ value p ≤ hi)) (hs : Stops rest) :
    ∀ x ∈ field lens lo hi (p ++ rest), ∃ c t, x.2 = c :: t ∧ isDig c = true := by
  intro x hx
  unfold field at hx
  rw [List.mem_filterMap] at hx
  obtain ⟨k, hk, h⟩ := hx
  split at h
  · rename_i hc
    obtain ⟨h1, h2, h3, h4⟩ := hc
    obtain rfl := (Option.some.inj h).symm
    rcases Nat.lt_trichotomy k p.length with hlt | rfl | hgt
    · refine ⟨p[k], p.drop (k + 1) ++ rest, ?_, ?_⟩
      · simp only
        rw [List.drop_append, show k - p.length = 0 by omega, List.drop_zero, List.drop_eq_getElem_cons hlt]
        rfl
      · rw [List.all_eq_true] at hp
        exact hp _ (List.getElem_mem hlt)
    · have e : (p ++ rest).take p.length = p := by simp
      rw [e] at h3 h4
      exact absurd ⟨hk, h3, h4⟩ hbad
    · rw [take_long hs hgt h1] at h2
      simp at h2
  · simp at h

theorem field_none {lens : List ℕ} (h0 : 0 ∉ lens) {lo hi : ℕ} {s : Name} (hs : Stops s) : field lens lo hi s = [] := by
  unfold field
  rw [List.filterMap_eq_nil_iff]
  intro k hk
  rw [if_neg]
  rintro ⟨h1, h2, -⟩
  have := take_long (p := []) hs (k := k) (by rcases Nat.eq_zero_or_pos k with rfl | h; exacts [absurd hk h0, h]) h1
  rw [List.nil_append] at this
  rw [this] at h2
  simp at h2

/-- A text that a directive reads as a number when something else follows. -/
def Reads (c : Char) (v : ℕ) (p : Name) : Prop := ∀ rest, Stops rest → ∃ more, alts c (p ++ rest) = (v, rest) :: more

theorem reads_field {c : Char} {lens : List ℕ} {lo hi : ℕ} (hc : ∀ s, ∃ add, alts c s = field lens lo hi s ++ add)
    (hd : lens.Pairwise (· > ·)) {p : Name} (hm : p.length ∈ lens) (hp : p.all isDig = true) (hlo : lo ≤ value p)
    (hhi : value p ≤ hi) : Reads c (value p) p := by
  intro rest hs
  obtain ⟨add, ha⟩ := hc (p ++ rest)
  obtain ⟨more, h⟩ := field_first hd hm hp hlo hhi hs
  exact ⟨more ++ add, by rw [ha, h]; rfl⟩

theorem alts_Y (s : Name) : alts 'Y' s = field [4] 0 9999 s := rfl
theorem alts_m (s : Name) : alts 'm' s = field [2, 1] 1 12 s := rfl
theorem alts_d (s : Name) : alts 'd' s = field [2, 1] 1 31 s ++ spaceDay s := rfl
theorem alts_H (s : Name) : alts 'H' s = field [2, 1] 0 23 s := rfl
theorem alts_M (s : Name) : alts 'M' s = field [2, 1] 0 59 s := rfl
theorem alts_S (s : Name) : alts 'S' s = field [2, 1] 0 61 s := rfl
theorem alts_j (s : Name) : alts 'j' s = field [3, 2, 1] 1 366 s := rfl

theorem dec_len_mem1 {n : ℕ} (h : n < 100) : (dec n).length ∈ [2, 1] := by
  have h1 := (dec_length n 2 (by norm_num)).2 (by omega)
  have h2 := List.length_pos_iff.2 (dec_spec n).2.2
  simp only [List.mem_cons, List.not_mem_nil, or_false]
  omega

theorem dec_len_mem2 {n : ℕ} (h : n < 1000) : (dec n).length ∈ [3, 2, 1] := by
  have h1 := (dec_length n 3 (by norm_num)).2 (by omega)
  have h2 := List.length_pos_iff.2 (dec_spec n).2.2
  simp only [List.mem_cons, List.not_mem_nil, or_false]
  omega

theorem reads_Y {n : ℕ} (h : 1000 ≤ n) (h' : n ≤ 9999) : Reads 'Y' n (dec n) := by
  have := reads_field (c := 'Y') (lens := [4]) (lo := 0) (hi := 9999) (fun s => ⟨[], by rw [alts_Y, List.append_nil]⟩)
    (by simp) (p := dec n) (by rw [dec_length_eq (k := 3) (by omega) (.inl (by omega))]; simp) (dec_spec n).2.1 (by omega)
    (by rw [(dec_spec n).1]; omega)
  rwa [(dec_spec n).1] at this

theorem reads_Y4 {n : ℕ} (h : n ≤ 9999) : Reads 'Y' n (pad4 n) := by
  obtain ⟨e1, e2, e3⟩ := pad4_spec (n := n) (by omega)
  have := reads_field (c := 'Y') (lens := [4]) (lo := 0) (hi := 9999) (fun s => ⟨[], by rw [alts_Y, List.append_nil]⟩)
    (by simp) (p := pad4 n) (by rw [e3]; simp) e2 (by omega) (by rw [e1]; omega)
  rwa [e1] at this

theorem reads_dec {c : Char} {lo hi : ℕ} (hc : ∀ s, ∃ add, alts c s = field [2, 1] lo hi s ++ add) {n : ℕ} (h : lo ≤ n)
    (h' : n ≤ hi) (h2 : n < 100) : Reads c n (dec n) := by
  have := reads_field (c := c) (lens := [2, 1]) (lo := lo) (hi := hi) hc
    (by simp) (p := dec n) (dec_len_mem1 h2) (dec_spec n).2.1 (by rw [(dec_spec n).1]; omega)
    (by rw [(dec_spec n).1]; omega)
  rwa [(dec_spec n).1] at this

theorem reads_pad {c : Char} {lo hi : ℕ} (hc : ∀ s, ∃ add, alts c s = field [2, 1] lo hi s ++ add) {n : ℕ} (h : lo ≤ n)
    (h' : n ≤ hi) (h2 : n < 100) : Reads c n (pad2 n) := by
  obtain ⟨e1, e2, e3⟩ := pad2_spec h2
  have := reads_field (c := c) (lens := [2, 1]) (lo := lo) (hi := hi) hc
    (by simp) (p := pad2 n) (by rw [e3]; simp) e2 (by rw [e1]; omega) (by rw [e1]; omega)
  rwa [e1] at this

theorem reads_j {p : Name} (h : 1 ≤ value p) (h' : value p ≤ 366) (hp : p.all isDig = true) (hl : p.length ∈ [3, 2, 1]) :
    Reads 'j' (value p) p :=
  reads_field (c := 'j') (lens := [3, 2, 1]) (lo := 1) (hi := 366) (fun s => ⟨[], by rw [alts_j, List.append_nil]⟩)
    (by simp) hl hp h h'

/-! ### matching -/

theorem firstSome_cons_some {α β : Type} {f : α → Option β} {a : α} {l : List α} {b : β} (h : f a = some b) :
    firstSome f (a :: l) = some b := by rw [firstSome, h]

theorem firstSome_none {α β : Type} {f : α → Option β} {l : List α} (h : ∀ a ∈ l, f a = none) : firstSome f l = none := by
  induction l with
  | nil => rfl
  | cons a l ih => rw [firstSome, h a (by simp)]; exact ih fun b hb => h b (by simp [hb])

theorem match_dir {c : Char} {v : ℕ} {p rest : Name} (hr : Reads c v p) (hs : Stops rest) {ts : List Tok} {f : Fields}
    {r : Name} (h : matchToks ts rest = some (f, r)) :
    matchToks (.dir c :: ts) (p ++ rest) = some ((c, v) :: f, r) := by
  obtain ⟨more, e⟩ := hr rest hs
  rw [matchToks, e]
  exact firstSome_cons_some (by simp only [h, Option.map_some])

theorem match_lit (c : Char) (ts : List Tok) (s : Name) : matchToks (.lit c :: ts) (c :: s) = matchToks ts s := by
  rw [matchToks]; simp

theorem match_fail {c : Char} {ts : List Tok} {s : Name} (h : ∀ x ∈ alts c s, matchToks ts x.2 = none) :
    matchToks (.dir c :: ts) s = none := by
  rw [matchToks]
  exact firstSome_none fun x hx => by simp only [h x hx, Option.map_none]

theorem dig_ne_dash {c : Char} (h : isDig c = true) : ('-' : Char).toLower ≠ c.toLower := by
  have hc : c.toNat < 58 ∧ 48 ≤ c.toNat := by
    unfold isDig at h
    simp only [Bool.and_eq_true, decide_eq_true_eq, Char.le_def, UInt32.le_iff_toNat_le] at h
    have h1 : '9'.val.toNat = 57 := rfl
    have h2 : '0'.val.toNat = 48 := rfl
    have h3 : c.toNat = c.val.toNat := rfl
    omega
  intro he
  have hl : c.toLower = c := by
    unfold Char.toLower
    rw [dif_neg]
    intro hh
    have hA : ('A' : Char).val.toNat = 65 := rfl
    have := hh.1
    have h3 : c.toNat = c.val.toNat := rfl
    rw [ge_iff_le, UInt32.le_iff_toNat_le] at this
    omega
  rw [hl] at he
  rw [← he] at h
  revert h
  decide

theorem match_dash_dig {ts : List Tok} {c : Char} {t : Name} (h : isDig c = true) :
    matchToks (.lit '-' :: ts) (c :: t) = none := by
  rw [matchToks, if_neg (dig_ne_dash h)]

/-! ### calendar -/

theorem dby_succ {y : ℕ} (hy : 1 ≤ y) : dby (y + 1) = dby y + (months y).sum := by
  unfold dby months leap
  obtain ⟨k, rfl⟩ : ∃ k, y = k + 1 := ⟨y - 1, by omega⟩
  simp only [Nat.add_sub_cancel, List.sum_cons, List.sum_nil]
  have h4 : (k + 1) / 4 = k / 4 + if (k + 1) % 4 = 0 then 1 else 0 := by split <;> omega
  have h100 : (k + 1) / 100 = k / 100 + if (k + 1) % 100 = 0 then 1 else 0 := by split <;> omega
  have h400 : (k + 1) / 400 = k / 400 + if (k + 1) % 400 = 0 then 1 else 0 := by split <;> omega
  have i1 : (k + 1) % 100 = 0 → (k + 1) % 4 = 0 := by omega
  have i2 : (k + 1) % 400 = 0 → (k + 1) % 100 = 0 := by omega
  have hle : k / 100 ≤ k / 4 := by omega
  rw [h4, h100, h400]
  generalize k / 4 = a at *
  generalize k / 100 = b at *
  generalize k / 400 = c at *
  clear h4 h100 h400
  by_cases e4 : (k + 1) % 4 = 0 <;> by_cases e100 : (k + 1) % 100 = 0 <;> by_cases e400 : (k + 1) % 400 = 0 <;>
    simp [e4, e100, e400] <;> omega

theorem months_sum (y : ℕ) : (months y).sum = 365 ∨ (months y).sum = 366 := by
  unfold months
  simp only [List.sum_cons, List.sum_nil]
  split <;> simp

theorem splitDoy_spec : ∀ (ls : List ℕ) (k : ℕ), 1 ≤ k → k ≤ ls.sum →
    1 ≤ (splitDoy ls k).1 ∧ (splitDoy ls k).1 ≤ ls.length ∧ 1 ≤ (splitDoy ls k).2 ∧
      (splitDoy ls k).2 ≤ ls.getD ((splitDoy ls k).1 - 1) 0 ∧
      (ls.take ((splitDoy ls k).1 - 1)).sum + (splitDoy ls k).2 = k
  | [], k, h1, h2 => by simp at h2; omega
  | l :: ls, k, h1, h2 => by
    rw [splitDoy]
    split
    · rename_i h
      simp
      omega
    · rename_i h
      rw [List.sum_cons] at h2
      obtain ⟨g1, g2, g3, g4, g5⟩ := splitDoy_spec ls (k - l) (by omega) (by omega)
      obtain ⟨m, hm⟩ : ∃ m, (splitDoy ls (k - l)).1 = m + 1 := ⟨_, (Nat.sub_add_cancel g1).symm⟩
      rw [hm] at g2 g4 g5 ⊢
      simp only [Nat.add_sub_cancel, List.length_cons, List.getD_cons_succ, List.take_succ_cons, List.sum_cons] at *
      omega

theorem dby_mono {a b : ℕ} (ha : 1 ≤ a) (h : a ≤ b) : dby a ≤ dby b := by
  induction b, h using Nat.le_induction with
  | base => exact le_rfl
  | succ b hb ih => rw [dby_succ (by omega)]; omega

theorem dby_ge {y : ℕ} (hy : 1 ≤ y) : y - 1 ≤ dby y := by
  induction y, hy using Nat.le_induction with
  | base => rfl
  | succ y h ih => rw [dby_succ h]; rcases months_sum y with e | e <;> omega

/-- `civil` gives the date of an ordinal. -/
theorem civil_spec {n : ℕ} (hn : 1 ≤ n) : ∃ y m d, civil n = (y, m, d) ∧ 1 ≤ y ∧ 1 ≤ m ∧ m ≤ 12 ∧ 1 ≤ d ∧
    d ≤ (months y).getD (m - 1) 0 ∧ ordinal y m d = n ∧ dby y < n ∧ n ≤ dby (y + 1) := by
  have h1 : dby 1 < n := by rw [show dby 1 = 0 from rfl]; omega
  set y := Nat.findGreatest (fun y => dby y < n) n with hy
  have hy1 : 1 ≤ y := Nat.le_findGreatest hn h1
  have hlt : dby y < n := Nat.findGreatest_spec (P := fun y => dby y < n) hn h1
  have hle : n ≤ dby (y + 1) := by
    by_contra hc
    push Not at hc
    have hyn : y + 1 ≤ n := by
      have := dby_ge (y := y + 1) (by omega)
      omega
    exact absurd hc (Nat.findGreatest_is_greatest (P := fun y => dby y < n) (Nat.lt_succ_self y) hyn)
  obtain ⟨g1, g2, g3, g4, g5⟩ := splitDoy_spec (months y) (n - dby y) (by omega) (by rw [dby_succ hy1] at hle; omega)
  refine ⟨y, _, _, rfl, hy1, g1, g2, g3, g4, ?_, hlt, hle⟩
  change dby y + ((months y).take ((splitDoy (months y) (n - dby y)).1 - 1)).sum + (splitDoy (months y) (n - dby y)).2 = n
  omega

end Ocb.Text
