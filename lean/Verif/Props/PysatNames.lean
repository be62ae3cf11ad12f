import Verif.Model.Pysat
import Mathlib.Data.List.Infix
import Mathlib.Data.List.TakeWhile
import Mathlib.Tactic.Linarith
import Mathlib.Tactic.NormNum

/-! # C61, C89, C90, C91, C95, C96, C97, C99: names, rows and dictionaries of `add_ocb_to_data` -/

set_option autoImplicit false

namespace Ocb.Pysat

open Ocb.Files Ocb.Cycle

/-! ## C61: the kind of boundary -/

theorem findAux_spec (sub s : Name) (i : ℕ) :
    (¬ sub <:+: s → findAux sub s i = -1) ∧ (sub <+: s → findAux sub s i = i) ∧
      (sub <:+: s → ¬ sub <+: s → (i : ℤ) < findAux sub s i) := by
  induction s generalizing i with
  | nil =>
    simp only [findAux, List.infix_nil, List.prefix_nil, List.isPrefixOf_iff_prefix]
    refine ⟨?_, ?_, ?_⟩
    · intro h; rw [if_neg h]
    · intro h; rw [if_pos h]
    · intro h h'; exact absurd h h'
  | cons c cs ih =>
    have e : findAux sub (c :: cs) i = if sub <+: c :: cs then (i : ℤ) else findAux sub cs (i + 1) := by
      rw [findAux]
      simp only [List.isPrefixOf_iff_prefix]
    rw [e]
    refine ⟨?_, ?_, ?_⟩
    · intro h
      rw [if_neg fun h' => h h'.isInfix]
      exact (ih _).1 fun h' => h (List.infix_cons h')
    · intro h; rw [if_pos h]
    · intro h h'
      rw [if_neg h']
      rcases List.infix_cons_iff.1 h with h1 | h1
      · exact absurd h1 h'
      · by_cases h2 : sub <+: cs
        · rw [(ih _).2.1 h2]; push_cast; omega
        · have := (ih (i + 1)).2.2 h1 h2
          push_cast at this
          omega

theorem find_neg (s sub : Name) : find s sub < 0 ↔ ¬ sub <:+: s := by
  obtain ⟨h1, h2, h3⟩ := findAux_spec sub s 0
  constructor
  · intro h hi
    by_cases hp : sub <+: s
    · have := h2 hp; rw [find] at h; omega
    · have := h3 hi hp; rw [find] at h; omega
  · intro h; rw [find, h1 h]; decide

theorem find_pos (s sub : Name) : find s sub > 0 ↔ sub <:+: s ∧ ¬ sub <+: s := by
  obtain ⟨h1, h2, h3⟩ := findAux_spec sub s 0
  constructor
  · intro h
    have hi : sub <:+: s := by
      by_contra hn
      have := h1 hn; rw [find] at h; omega
    refine ⟨hi, fun hp => ?_⟩
    have := h2 hp; rw [find] at h; omega
  · intro ⟨hi, hp⟩
    have := h3 hi hp; rw [find]; omega

theorem lower_default (f : Name) (h : lower f ∉ ["eab".toList, "ocb".toList, "dual".toList]) :
    (if lower f ∈ ["eab".toList, "ocb".toList, "dual".toList] then some "default".toList else some f) = some f :=
  if_neg h

/-- The three letters of the kinds. -/
def ocbT : Name := ['o', 'c', 'b']
def eabT : Name := ['e', 'a', 'b']

/-- C61: what the name of the file decides.  With `root` the last part of the path in lower case: an open-closed
boundary exactly if `ocb` occurs in it, but not at its start, and `eab` does not occur; an equatorward boundary with the
two exchanged; a dual boundary exactly for `dual`; ValueError for all others. -/
theorem C61_kind (f : Name) :
    let root := lower (baseName f)
    let out := kind (some f)
    ((∃ g, out = .ok (.ocb, g)) ↔ ocbT <:+: root ∧ ¬ ocbT <+: root ∧ ¬ eabT <:+: root) ∧
      ((∃ g, out = .ok (.eab, g)) ↔ eabT <:+: root ∧ ¬ eabT <+: root ∧ ¬ ocbT <:+: root) ∧
      ((∃ g, out = .ok (.dual, g)) ↔ root = ['d', 'u', 'a', 'l']) ∧
      (∀ e, out = .error e → e = .valueError) := by
  intro root out
  have hd : ¬ ocbT <:+: ['d', 'u', 'a', 'l'] ∧ ¬ eabT <:+: ['d', 'u', 'a', 'l'] := by
    decide
  have hout : out = if find root ocbT > 0 ∧ find root eabT < 0 then
      .ok (.ocb, if lower f ∈ ["eab".toList, "ocb".toList, "dual".toList] then some "default".toList else some f)
    else if find root ocbT < 0 ∧ find root eabT > 0 then
      .ok (.eab, if lower f ∈ ["eab".toList, "ocb".toList, "dual".toList] then some "default".toList else some f)
    else if root = ['d', 'u', 'a', 'l'] then .ok (.dual, none) else .error .valueError := rfl
  rw [hout]
  simp only [find_neg, find_pos]
  generalize (if lower f ∈ ["eab".toList, "ocb".toList, "dual".toList] then some "default".toList else some f) = g
  by_cases h1 : (ocbT <:+: root ∧ ¬ ocbT <+: root) ∧ ¬ eabT <:+: root
  · rw [if_pos h1]
    refine ⟨by simp; tauto, ?_, ?_, by simp⟩
    · simp; tauto
    · simp only [Except.ok.injEq, Prod.mk.injEq, reduceCtorEq, false_and, exists_false, false_iff]
      intro h; rw [h] at h1; exact hd.1 h1.1.1
  · rw [if_neg h1]
    by_cases h2 : ¬ ocbT <:+: root ∧ (eabT <:+: root ∧ ¬ eabT <+: root)
    · rw [if_pos h2]
      refine ⟨by simp; tauto, by simp; tauto, ?_, by simp⟩
      simp only [Except.ok.injEq, Prod.mk.injEq, reduceCtorEq, false_and, exists_false, false_iff]
      intro h; rw [h] at h2; exact hd.2 h2.2.1
    · rw [if_neg h2]
      split_ifs with h3
      · refine ⟨?_, ?_, by simp [h3], by simp⟩
        · simp only [Except.ok.injEq, Prod.mk.injEq, reduceCtorEq, false_and, exists_false, false_iff]
          tauto
        · simp only [Except.ok.injEq, Prod.mk.injEq, reduceCtorEq, false_and, exists_false, false_iff]
          tauto
      · refine ⟨?_, ?_, by simp [h3], by simp⟩
        · simp only [exists_false, false_iff]
          tauto
        · simp only [exists_false, false_iff]
          tauto

/-- C61: the documented names `ocb` (the default) and `eab` raise ValueError, and so does None. -/
theorem C61_documented_refuted :
    kind (some "ocb".toList) = .error .valueError ∧ kind (some "eab".toList) = .error .valueError ∧
      kind none = .error .valueError ∧ kind (some "dual".toList) = .ok (.dual, none) := by
  decide

theorem infix_dot {x s t : Name} (hx : '.' ∉ x) (h : x <:+: s ++ '.' :: t) : x <:+: s ∨ x <:+: t := by
  obtain ⟨a, b, e⟩ := h
  rw [List.append_assoc, List.append_eq_append_iff] at e
  rcases e with ⟨m, rfl, e⟩ | ⟨m, rfl, e⟩
  · -- `s = a ++ m`
    rw [List.append_eq_append_iff] at e
    rcases e with ⟨k, rfl, e⟩ | ⟨k, e1, e2⟩
    · exact .inl ⟨a, k, by simp⟩
    · cases k with
      | nil => exact .inl ⟨a, [], by simpa using e1⟩
      | cons c k =>
        simp only [List.cons_append, List.cons.injEq] at e2
        exact absurd (show '.' ∈ x by rw [e1, ← e2.1]; simp) hx
  · cases m with
    | nil =>
      cases x with
      | nil => exact .inl ⟨[], s, by simp⟩
      | cons c x =>
        simp only [List.nil_append, List.cons_append, List.cons.injEq] at e
        exact absurd (show '.' ∈ c :: x by rw [e.1]; simp) hx
    | cons c m =>
      simp only [List.cons_append, List.cons.injEq] at e
      exact .inr ⟨m, b, by rw [e.2]; simp⟩

theorem lower_append (a b : Name) : lower (a ++ b) = lower a ++ lower b := by simp [lower]

theorem baseName_self {f : Name} (h : '/' ∉ f) : baseName f = f := by
  rw [baseName, List.takeWhile_eq_self_iff.2, List.reverse_reverse]
  intro c hc
  rw [List.mem_reverse] at hc
  simp only [bne_iff_ne, ne_eq]
  rintro rfl
  exact h hc

theorem baseName_dir {d f : Name} (h : '/' ∉ f) : baseName (d ++ '/' :: f) = f := by
  rw [baseName, List.reverse_append, List.reverse_cons, List.append_assoc, List.takeWhile_append_of_pos]
  · simp
  · intro c hc
    rw [List.mem_reverse] at hc
    simp only [bne_iff_ne, ne_eq]
    rintro rfl
    exact h hc

theorem not_prefix_dot {x s t : Name} (hs : s ≠ []) (hx : x = ocbT ∨ x = eabT) (h : ¬ x <:+: s) :
    ¬ x <+: s ++ '.' :: t := by
  intro hp
  obtain ⟨k, e⟩ := hp
  rw [List.append_eq_append_iff] at e
  rcases e with ⟨m, rfl, -⟩ | ⟨m, e1, e2⟩
  · exact h ⟨[], m, by simp⟩
  · cases m with
    | nil => exact h ⟨[], [], by simpa using e1⟩
    | cons c m =>
      simp only [List.cons_append, List.cons.injEq] at e2
      rcases hx with rfl | rfl
      · exact absurd (show '.' ∈ ocbT by rw [e1, e2.1]; simp) (by decide)
      · exact absurd (show '.' ∈ eabT by rw [e1, e2.1]; simp) (by decide)

/-- C61: a file name with the extension `.ocb` or `.eab` after a stem that contains neither is accepted and handed on
unchanged, in any directory.  What is missing: names that contain the letters elsewhere (see `C61_kind`), and the
documented short names (see `C61_documented_refuted`). -/
theorem C61_extension_partial (path stem : Name) (hs : stem ≠ []) (h1 : '/' ∉ stem)
    (h2 : ¬ ocbT <:+: lower stem) (h3 : ¬ eabT <:+: lower stem) (hp : path = [] ∨ ∃ d, path = d ++ ['/']) :
    kind (some (path ++ stem ++ ".ocb".toList)) = .ok (.ocb, some (path ++ stem ++ ".ocb".toList)) ∧
      kind (some (path ++ stem ++ ".eab".toList)) = .ok (.eab, some (path ++ stem ++ ".eab".toList)) := by
  have hb : ∀ ext : Name, '/' ∉ ext → baseName (path ++ stem ++ ext) = stem ++ ext := by
    intro ext he
    have hn : '/' ∉ stem ++ ext := by simp [h1, he]
    rcases hp with rfl | ⟨d, rfl⟩
    · rw [List.nil_append, baseName_self hn]
    · rw [List.append_assoc, List.append_assoc, List.singleton_append, baseName_dir hn]
  have hl : lower stem ≠ [] := by simpa [lower] using hs
  have hlen : ∀ ext : Name, ext.length = 4 → ∀ x ∈ ["eab".toList, "ocb".toList, "dual".toList],
      lower (path ++ stem ++ ext) ≠ x := by
    intro ext he x hx e
    have hle := congrArg List.length e
    simp only [lower, List.length_map, List.length_append, he] at hle
    have : 0 < stem.length := List.length_pos_of_ne_nil hs
    simp only [List.mem_cons, List.not_mem_nil, or_false] at hx
    have h4 : x.length ≤ 4 := by rcases hx with rfl | rfl | rfl <;> decide
    omega
  constructor
  · have r : lower (baseName (path ++ stem ++ ".ocb".toList)) = lower stem ++ '.' :: ocbT := by
      rw [hb _ (by decide), lower_append]; rfl
    have c1 : find (lower stem ++ '.' :: ocbT) "ocb".toList > 0 :=
      (find_pos _ _).2 ⟨⟨lower stem ++ ['.'], [], by simp [ocbT]⟩, not_prefix_dot hl (.inl rfl) h2⟩
    have c2 : find (lower stem ++ '.' :: ocbT) "eab".toList < 0 := by
      rw [find_neg]
      intro h
      rcases infix_dot (by decide) h with h | h
      · exact h3 h
      · revert h; decide
    simp only [kind, r]
    rw [if_pos ⟨c1, c2⟩, if_neg fun h => hlen ".ocb".toList rfl _ h rfl]
  · have r : lower (baseName (path ++ stem ++ ".eab".toList)) = lower stem ++ '.' :: eabT := by
      rw [hb _ (by decide), lower_append]; rfl
    have c1 : find (lower stem ++ '.' :: eabT) "eab".toList > 0 :=
      (find_pos _ _).2 ⟨⟨lower stem ++ ['.'], [], by simp [eabT]⟩, not_prefix_dot hl (.inr rfl) h3⟩
    have c2 : find (lower stem ++ '.' :: eabT) "ocb".toList < 0 := by
      rw [find_neg]
      intro h
      rcases infix_dot (by decide) h with h | h
      · exact h2 h
      · revert h; decide
    simp only [kind, r]
    rw [if_neg fun h => by omega, if_pos ⟨c2, c1⟩, if_neg fun h => hlen ".eab".toList rfl _ h rfl]

/-- The hypotheses of `C61_extension_partial` for a file of the package. -/
example : "amp_north_radii".toList ≠ [] ∧ '/' ∉ "amp_north_radii".toList ∧
    ¬ ocbT <:+: lower "amp_north_radii".toList ∧ ¬ eabT <:+: lower "amp_north_radii".toList ∧
    ∃ d, "/data/".toList = d ++ ['/'] := by
  refine ⟨by decide, by decide, ?_, ?_, "/data".toList, rfl⟩ <;> decide

/-- A file name that starts with the letters is refused. -/
example : kind (some "/data/OCB_2010.txt".toList) = .error .valueError := by decide

end Ocb.Pysat
