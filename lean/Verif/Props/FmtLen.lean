import Mathlib.Algebra.BigOperators.Group.List.Basic
import Mathlib.Algebra.Order.BigOperators.Group.List
import Mathlib.Tactic.Linarith
import Verif.Model.TimeText

/-!
# Property C10: `get_datetime_fmt_len` bounds the rendered length
-/

set_option autoImplicit false

namespace Ocb.Text

open Ocb.Files (Name contains)

/-- The documented widths of the directives of `strftime` (table of the Python `datetime` documentation, English names,
`%Z` empty, `UTC` or `GMT`).  `zone` is the width of `%z`: 5 for offsets of whole minutes, 14 at most. -/
def width (zone : ℕ) (c : Char) : Option ℕ :=
  if c ∈ "wu%".toList then some 1
  else if c ∈ "dmyHIpMSUWV".toList then some 2
  else if c ∈ "abjZ".toList then some 3
  else if c ∈ "YG".toList then some 4
  else if c = 'f' then some 6
  else if c = 'X' then some 8
  else if c ∈ "AB".toList then some 9
  else if c = 'x' then some 10
  else if c = 'c' then some 24
  else if c = 'z' then some zone
  else none

/-- `Renders zone fmt ds s`: the format `fmt`, with the directives `ds` in this order, can be rendered as `s`. -/
inductive Renders (zone : ℕ) : Name → Name → Name → Prop
  | nil : Renders zone [] [] []
  | lit {c : Char} {f ds s : Name} : c ≠ '%' → Renders zone f ds s → Renders zone (c :: f) ds (c :: s)
  | dir {c : Char} {w : ℕ} {f ds t s : Name} : width zone c = some w → t.length ≤ w → Renders zone f ds s →
      Renders zone ('%' :: c :: f) (c :: ds) (t ++ s)

/-- What the table adds for one directive. -/
def extra (T : List (Char × ℕ)) (c : Char) : ℕ := (T.map fun d => if d.1 = c then d.2 else 0).sum

theorem extra_swap (T : List (Char × ℕ)) (ds : Name) :
    (ds.map (extra T)).sum = (T.map fun d => d.2 * ds.count d.1).sum := by
  induction ds with
  | nil => simp
  | cons c ds ih =>
    rw [List.map_cons, List.sum_cons, ih]
    unfold extra
    rw [← List.sum_map_add]
    congr 1
    apply List.map_congr_left
    intro d _
    rw [List.count_cons]
    by_cases h : d.1 = c
    · rw [if_pos h, if_pos (by simp [h])]; ring
    · rw [if_neg h, if_neg (by simpa using fun e => h e.symm)]; ring

theorem foldl_sum {α : Type} (p : α → Bool) (g : α → ℕ) (l : List α) (n : ℕ) :
    l.foldl (fun n d => if p d then n + g d else n) n = n + (l.map fun d => if p d then g d else 0).sum := by
  induction l generalizing n with
  | nil => simp
  | cons a l ih =>
    rw [List.foldl_cons, ih, List.map_cons, List.sum_cons]
    split <;> omega

/-- The table by directive. -/
def table : List (Char × ℕ) := [('a', 1), ('A', 10), ('b', 1), ('B', 8), ('Y', 2), ('f', 4), ('z', 3), ('Z', 1), ('j', 1),
  ('c', 22), ('x', 8), ('X', 7)]

theorem addLen_table : addLen = table.map fun d => (['%', d.1], d.2) := by decide

theorem contains_of_mem {zone : ℕ} {f ds s : Name} (h : Renders zone f ds s) {c : Char} (hc : c ∈ ds) :
    contains ['%', c] f = true := by
  induction h with
  | nil => simp at hc
  | lit _ _ ih => rw [contains, ih hc, Bool.or_true]
  | dir _ _ _ ih =>
    rename_i c' _ _ _ _ _ _ _ _
    rw [List.mem_cons] at hc
    rcases hc with rfl | hc
    · rw [contains]; simp
    · rw [contains, contains, ih hc, Bool.or_true, Bool.or_true]

theorem width_extra {zone : ℕ} (hz : zone ≤ 5) {c : Char} (hG : c ≠ 'G') {w : ℕ} (h : width zone c = some w) :
    w ≤ 2 + extra table c := by
  unfold width at h
  split at h
  · rename_i hc
    injection h with h; omega
  split at h
  · injection h with h; omega
  split at h
  · rename_i hc
    injection h with h
    subst h
    have : c = 'a' ∨ c = 'b' ∨ c = 'j' ∨ c = 'Z' := by
      rw [show "abjZ".toList = ['a', 'b', 'j', 'Z'] by decide] at hc; simpa using hc
    rcases this with rfl | rfl | rfl | rfl <;> decide
  split at h
  · rename_i hc
    injection h with h
    subst h
    have : c = 'Y' ∨ c = 'G' := by
      rw [show "YG".toList = ['Y', 'G'] by decide] at hc; simpa using hc
    rcases this with rfl | rfl
    · decide
    · exact absurd rfl hG
  split at h
  · rename_i hc; injection h with h; subst h hc; decide
  split at h
  · rename_i hc; injection h with h; subst h hc; decide
  split at h
  · rename_i hc
    injection h with h
    subst h
    have : c = 'A' ∨ c = 'B' := by
      rw [show "AB".toList = ['A', 'B'] by decide] at hc; simpa using hc
    rcases this with rfl | rfl <;> decide
  split at h
  · rename_i hc; injection h with h; subst h hc; decide
  split at h
  · rename_i hc; injection h with h; subst h hc; decide
  split at h
  · rename_i hc
    injection h with h
    subst h hc
    have : extra table 'z' = 3 := by decide
    omega
  · simp at h

theorem length_le {zone : ℕ} (hz : zone ≤ 5) {f ds s : Name} (h : Renders zone f ds s) (hG : 'G' ∉ ds) :
    s.length ≤ f.length + (ds.map (extra table)).sum := by
  induction h with
  | nil => simp
  | lit _ _ ih =>
    have := ih hG
    simp only [List.length_cons]
    omega
  | dir h1 h2 _ ih =>
    rw [List.mem_cons, not_or] at hG
    have h3 := ih hG.2
    have h4 := width_extra hz (fun e => hG.1 e.symm) h1
    simp only [List.length_append, List.length_cons, List.map_cons, List.sum_cons]
    omega

/-- C10 as far as it holds: whatever the format, if no directive is repeated, `%G` is not used, and offsets are whole
minutes, every rendered text fits. -/
theorem C10_fits_partial {zone : ℕ} (hz : zone ≤ 5) {f ds s : Name} (h : Renders zone f ds s) (hn : ds.Nodup)
    (hG : 'G' ∉ ds) : s.length ≤ fmtLen f := by
  refine (length_le hz h hG).trans ?_
  unfold fmtLen
  rw [foldl_sum (fun d : Name × ℕ => contains d.1 f) (fun d => d.2), extra_swap, addLen_table, List.map_map]
  refine Nat.add_le_add_left ?_ _
  apply List.sum_le_sum
  intro d _
  by_cases hd : d.1 ∈ ds
  · simp only [Function.comp_apply]
    rw [contains_of_mem h hd, if_pos rfl, List.count_eq_one_of_mem hn hd, Nat.mul_one]
  · rw [List.count_eq_zero_of_not_mem hd, Nat.mul_zero]
    exact Nat.zero_le _

/-- C10, the other side: a format without any of the twelve directives needs exactly its own length. -/
theorem C10_plain {f : Name} (h : ∀ d ∈ table, contains ['%', d.1] f = false) : fmtLen f = f.length := by
  unfold fmtLen
  rw [foldl_sum (fun d : Name × ℕ => contains d.1 f) (fun d => d.2), addLen_table, List.map_map]
  have : (table.map ((fun d : Name × ℕ => if contains d.1 f = true then d.2 else 0) ∘ fun d => (['%', d.1], d.2))).sum = 0 := by
    apply List.sum_eq_zero
    intro x hx
    obtain ⟨d, hd, rfl⟩ := List.mem_map.1 hx
    simp only [Function.comp_apply, h d hd]
    rfl
  rw [this, Nat.add_zero]

example : Renders 5 "%Y-%j".toList "Yj".toList "2001-091".toList :=
  .dir (t := "2001".toList) (w := 4) (by decide) (by decide) (.lit (by decide) (.dir (t := "091".toList) (w := 3)
    (s := []) (by decide) (by decide) .nil))

/-- C10 is false when a directive is repeated: a year written `n + 1` times needs `4 * (n + 1)` characters and the result
is `2 * (n + 1) + 2`. -/
theorem C10_repeat_refuted (n : ℕ) : let f := (List.replicate (n + 1) "%Y".toList).flatten
    ∃ s, Renders 5 f (List.replicate (n + 1) 'Y') s ∧ s.length = 4 * (n + 1) ∧ fmtLen f = 2 * (n + 1) + 2 := by
  intro f
  have hr : ∀ k, ∃ s, Renders 5 (List.replicate k "%Y".toList).flatten (List.replicate k 'Y') s ∧ s.length = 4 * k := by
    intro k
    induction k with
    | zero => exact ⟨[], .nil, rfl⟩
    | succ k ih =>
      obtain ⟨s, h1, h2⟩ := ih
      refine ⟨"2001".toList ++ s, ?_, ?_⟩
      · rw [List.replicate_succ, List.replicate_succ, List.flatten_cons]
        exact .dir (w := 4) (by decide) (by decide) h1
      · rw [List.length_append, h2]
        have : "2001".toList.length = 4 := by decide
        omega
  obtain ⟨s, h1, h2⟩ := hr (n + 1)
  refine ⟨s, h1, h2, ?_⟩
  have hlen : ∀ k, (List.replicate k "%Y".toList).flatten.length = 2 * k := by
    intro k
    simp [Nat.mul_comm]
  have hno : ∀ c, c ≠ 'Y' → ∀ k, contains ['%', c] (List.replicate k "%Y".toList).flatten = false := by
    intro c hc k
    induction k with
    | zero => rfl
    | succ k ih =>
      rw [List.replicate_succ, List.flatten_cons]
      change contains ['%', c] ('%' :: 'Y' :: (List.replicate k "%Y".toList).flatten) = false
      rw [contains, contains, ih]
      simp [List.isPrefixOf, hc]
  have hY : contains ['%', 'Y'] f = true := contains_of_mem h1 (by simp)
  unfold fmtLen
  rw [foldl_sum (fun d : Name × ℕ => contains d.1 f) (fun d => d.2), hlen, addLen_table, List.map_map]
  have : (table.map ((fun d : Name × ℕ => if contains d.1 f = true then d.2 else 0) ∘ fun d => (['%', d.1], d.2)))
      = table.map fun d => if d.1 = 'Y' then d.2 else 0 := by
    apply List.map_congr_left
    intro d _
    simp only [Function.comp_apply]
    by_cases hd : d.1 = 'Y'
    · rw [hd, hY, if_pos rfl, if_pos rfl]
    · rw [hno _ hd, if_neg hd]; rfl
  rw [this]
  congr 1

/-- C10 is false for the ISO year `%G`, which is missing from the table. -/
theorem C10_iso_year_refuted : ∃ s, Renders 5 "%G".toList "G".toList s ∧ fmtLen "%G".toList < s.length :=
  ⟨"2001".toList ++ [], .dir (w := 4) (by decide) (by decide) .nil, by decide⟩

/-- C10 is false for a UTC offset with seconds. -/
theorem C10_offset_refuted : ∃ s, Renders 14 "%z".toList "z".toList s ∧ fmtLen "%z".toList < s.length :=
  ⟨"-030712.345216".toList ++ [], .dir (w := 14) (by decide) (by decide) .nil, by decide⟩

end Ocb.Text
