import Mathlib.Data.Nat.Notation
import Verif.Model.Basic

/-! Lemmas about the common vocabulary. -/

set_option autoImplicit false

namespace Ocb

theorem mapE_ok {α β : Type*} {f : α → Except PyErr β} {l : List α} (h : ∀ a ∈ l, ∃ b, f a = .ok b) :
    ∃ bs, mapE f l = .ok bs := by
  induction l with
  | nil => exact ⟨[], rfl⟩
  | cons a l ih =>
    obtain ⟨b, hb⟩ := h a List.mem_cons_self
    obtain ⟨bs, hbs⟩ := ih (fun a ha => h a (List.mem_cons_of_mem _ ha))
    exact ⟨b :: bs, by simp only [mapE, hb, hbs]⟩

theorem mapE_get {α β : Type*} {f : α → Except PyErr β} {l : List α} {bs : List β} (h : mapE f l = .ok bs) :
    bs.length = l.length ∧ ∀ (i : ℕ) (a : α), l[i]? = some a → ∃ b, bs[i]? = some b ∧ f a = .ok b := by
  induction l generalizing bs with
  | nil => simp only [mapE, Except.ok.injEq] at h; subst h; simp
  | cons a l ih =>
    simp only [mapE] at h
    split at h
    · simp at h
    · rename_i b hb
      split at h
      · simp at h
      · rename_i bs' hbs
        simp only [Except.ok.injEq] at h
        subst h
        obtain ⟨h1, h2⟩ := ih hbs
        refine ⟨by simp [h1], ?_⟩
        intro i a' ha'
        cases i with
        | zero =>
          simp only [List.getElem?_cons_zero, Option.some.injEq] at ha'
          subst ha'
          exact ⟨b, rfl, hb⟩
        | succ i =>
          simp only [List.getElem?_cons_succ] at ha'
          obtain ⟨b', hb1, hb2⟩ := h2 i a' ha'
          exact ⟨b', by simpa using hb1, hb2⟩

theorem mapE_map {α β : Type*} {f : α → Except PyErr β} {g : α → β} {l : List α} (h : ∀ a ∈ l, f a = .ok (g a)) :
    mapE f l = .ok (l.map g) := by
  induction l with
  | nil => rfl
  | cons a l ih =>
    simp only [mapE, h a List.mem_cons_self, ih (fun a ha => h a (List.mem_cons_of_mem _ ha)), List.map_cons]

end Ocb
