import Verif.Model.Pysat
import Mathlib.Data.List.Nodup
import Mathlib.Tactic.Tauto

/-! # C96, C99: what `add_ocb_to_data` does with its lists of names and its dictionary of vectors -/

set_option autoImplicit false

namespace Ocb.Pysat

open Ocb.Files Ocb.Cycle

/-! ## Specification -/

/-- The scaling function of a vector named `e`: the one of the list that names it, otherwise its own entries. -/
def scaled (evars curls : List Name) (v : Name × List (Name × Arg)) : Name × List (Name × Arg) :=
  (v.1, if v.1 ∈ evars then upd v.2 "scale_func".toList (.fn .evar)
    else if v.1 ∈ curls then upd v.2 "scale_func".toList (.fn .curl) else v.2)

/-- A vector is usable: it has a scaling function, and each component is the name of a variable. -/
def Usable (vars evars curls : List Name) (v : Name × List (Name × Arg)) : Prop :=
  (v.1 ∈ evars ∨ v.1 ∈ curls ∨ ∃ a, ("scale_func".toList, a) ∈ v.2) ∧
    ∀ k a, (k, a) ∈ v.2 → (k = "vect_n".toList ∨ k = "vect_e".toList ∨ k = "vect_z".toList) →
      ∃ t ∈ vars, a = .text t

/-- All the names are known. -/
def Known (vars : List Name) (n : Names) : Prop :=
  n.mlat ∈ vars ∧ n.mlt ∈ vars ∧ (∀ e ∈ n.evars, e ∈ vars ∨ e ∈ n.vects.map Prod.fst) ∧
    (∀ e ∈ n.curls, e ∈ vars ∨ e ∈ n.vects.map Prod.fst) ∧ ∀ v ∈ n.vects, Usable vars n.evars n.curls v

/-! ## Lemmas -/

theorem mem_comps {k : Name} : k ∈ comps ↔ k = "vect_n".toList ∨ k = "vect_e".toList ∨ k = "vect_z".toList := by
  simp only [comps, List.mem_cons, List.not_mem_nil, or_false]

theorem needOf_iff (vars : List Name) (es : List (Name × Arg)) (need : List Name) :
    ((∀ k a, (k, a) ∈ es → k ∈ comps → ∃ t ∈ vars, a = .text t) → ∃ need', needOf vars es need = .ok need') ∧
      (¬ (∀ k a, (k, a) ∈ es → k ∈ comps → ∃ t ∈ vars, a = .text t) → needOf vars es need = .error .valueError) := by
  induction es generalizing need with
  | nil => exact ⟨fun _ => ⟨need, rfl⟩, fun h => absurd (fun k a h => by simp at h) h⟩
  | cons e es ih =>
    obtain ⟨k, v⟩ := e
    rw [needOf.eq_def]
    simp only
    by_cases hk : k ∈ comps
    · rw [if_pos hk]
      cases v with
      | fn f =>
        refine ⟨fun h => ?_, fun _ => rfl⟩
        obtain ⟨t, -, h⟩ := h k _ List.mem_cons_self hk
        simp at h
      | text t =>
        simp only
        by_cases ht : t ∈ vars
        · rw [if_pos ht]
          refine ⟨fun h => (ih _).1 fun k' a ha hk' => h k' a (List.mem_cons_of_mem _ ha) hk', fun h => (ih _).2 fun h' => h ?_⟩
          intro k' a ha hk'
          rcases List.mem_cons.1 ha with e | ha
          · simp only [Prod.mk.injEq] at e
            exact ⟨t, ht, e.2⟩
          · exact h' k' a ha hk'
        · rw [if_neg ht]
          refine ⟨fun h => ?_, fun _ => rfl⟩
          obtain ⟨t', ht', h⟩ := h k _ List.mem_cons_self hk
          simp only [Arg.text.injEq] at h
          exact absurd (h ▸ ht') ht
    · rw [if_neg hk]
      refine ⟨fun h => (ih _).1 fun k' a ha hk' => h k' a (List.mem_cons_of_mem _ ha) hk', fun h => (ih _).2 fun h' => h ?_⟩
      intro k' a ha hk'
      rcases List.mem_cons.1 ha with e | ha
      · simp only [Prod.mk.injEq] at e
        exact absurd (e.1 ▸ hk') hk
      · exact h' k' a ha hk'

theorem upd_mem {d : List (Name × Arg)} {k k' : Name} {v a : Arg} (h : k' ≠ k) : (k', a) ∈ upd d k v ↔ (k', a) ∈ d := by
  rw [upd]
  split_ifs
  · simp only [List.mem_map]
    constructor
    · rintro ⟨e, he, h1⟩
      split_ifs at h1 with h2
      · simp only [Prod.mk.injEq] at h1
        exact absurd h1.1.symm h
      · rw [← h1]; exact he
    · intro h1
      exact ⟨(k', a), h1, by simp [h]⟩
  · simp [h]

theorem upd_self (d : List (Name × Arg)) (k : Name) (v a : Arg) : (k, a) ∈ upd d k v ↔ a = v := by
  rw [upd]
  split_ifs with h
  · simp only [List.mem_map]
    constructor
    · rintro ⟨e, he, h1⟩
      split_ifs at h1 with h2
      · simp only [Prod.mk.injEq, true_and] at h1
        exact h1.symm
      · rw [h1] at h2
        exact absurd rfl h2
    · rintro rfl
      simp only [List.any_eq_true, beq_iff_eq] at h
      obtain ⟨e, he, h⟩ := h
      exact ⟨e, he, by simp [h]⟩
  · simp only [List.mem_append, List.mem_singleton, Prod.mk.injEq, true_and]
    constructor
    · rintro (h1 | h1)
      · exact absurd (List.any_eq_true.2 ⟨(k, a), h1, by simp⟩) h
      · exact h1
    · exact .inr

theorem comps_ne {k : Name} (h : k ∈ comps) : k ≠ "scale_func".toList := by
  rintro rfl; revert h; decide

theorem vectLoop_eq (vars : List Name) (vs : List (Name × List (Name × Arg))) (p : Plan)
    (hn : (vs.map Prod.fst).Nodup) :
    ((∀ v ∈ vs, Usable vars p.evars p.curls v) → ∃ need, vectLoop vars vs p = .ok
      ⟨vs.foldl (fun l v => l.erase v.1) p.evars,
        (vs.filter (fun v => v.1 ∉ p.evars)).foldl (fun l v => l.erase v.1) p.curls,
        p.vects ++ vs.map (scaled p.evars p.curls), need⟩) ∧
      (¬ (∀ v ∈ vs, Usable vars p.evars p.curls v) → vectLoop vars vs p = .error .valueError) := by
  induction vs generalizing p with
  | nil => exact ⟨fun _ => ⟨p.need, by simp [vectLoop]⟩, fun h => absurd (by simp) h⟩
  | cons v vs ih =>
    obtain ⟨e, entries⟩ := v
    simp only [List.map_cons, List.nodup_cons] at hn
    have hne : ∀ v ∈ vs, v.1 ≠ e := fun v hv h => hn.1 (h ▸ List.mem_map_of_mem hv)
    -- the outcome of `setScale`
    have hs : setScale p e entries =
        if e ∈ p.evars ∨ e ∈ p.curls ∨ (entries.any fun k => k.1 == "scale_func".toList) = true then
          .ok ({ p with evars := p.evars.erase e, curls := if e ∈ p.evars then p.curls else p.curls.erase e },
            (scaled p.evars p.curls (e, entries)).2)
        else .error .valueError := by
      simp only [setScale, scaled]
      by_cases h1 : e ∈ p.evars
      · simp [h1]
      · rw [List.erase_of_not_mem h1]
        by_cases h2 : e ∈ p.curls
        · simp [h1, h2]
        · simp only [h1, h2, if_false, false_or, List.erase_of_not_mem h2]
    have hany : (entries.any fun k => k.1 == "scale_func".toList) = true ↔ ∃ a, ("scale_func".toList, a) ∈ entries := by
      simp only [List.any_eq_true, beq_iff_eq]
      constructor
      · rintro ⟨⟨k, a⟩, h, e⟩; exact ⟨a, e ▸ h⟩
      · rintro ⟨a, h⟩; exact ⟨_, h, rfl⟩
    have hneed : (∀ k a, (k, a) ∈ (scaled p.evars p.curls (e, entries)).2 → k ∈ comps → ∃ t ∈ vars, a = .text t) ↔
        ∀ k a, (k, a) ∈ entries → k ∈ comps → ∃ t ∈ vars, a = .text t := by
      refine forall_congr' fun k => forall_congr' fun a => ?_
      by_cases hk : k ∈ comps
      · rw [scaled]
        simp only
        split_ifs <;> simp only [upd_mem (comps_ne hk)]
      · simp [hk]
    rw [vectLoop]
    simp only [bind, Except.bind, hs]
    by_cases hsc : e ∈ p.evars ∨ e ∈ p.curls ∨ (entries.any fun k => k.1 == "scale_func".toList) = true
    · rw [if_pos hsc]
      rw [hany] at hsc
      simp only
      by_cases hc : ∀ k a, (k, a) ∈ entries → k ∈ comps → ∃ t ∈ vars, a = .text t
      · obtain ⟨need, h⟩ := (needOf_iff vars _ p.need).1 (hneed.2 hc)
        rw [h]
        simp only
        have hmem : ∀ v ∈ vs, (v.1 ∈ p.evars.erase e ↔ v.1 ∈ p.evars) ∧
            (v.1 ∈ (if e ∈ p.evars then p.curls else p.curls.erase e) ↔ v.1 ∈ p.curls) := by
          intro v hv
          refine ⟨List.mem_erase_of_ne (hne v hv), ?_⟩
          split_ifs
          · rfl
          · exact List.mem_erase_of_ne (hne v hv)
        have hu : (∀ v ∈ vs, Usable vars (p.evars.erase e) (if e ∈ p.evars then p.curls else p.curls.erase e) v) ↔
            ∀ v ∈ vs, Usable vars p.evars p.curls v := by
          refine forall_congr' fun v => forall_congr' fun hv => ?_
          rw [Usable, Usable, (hmem v hv).1, (hmem v hv).2]
        have hmap : vs.map (scaled (p.evars.erase e) (if e ∈ p.evars then p.curls else p.curls.erase e)) =
            vs.map (scaled p.evars p.curls) := by
          refine List.map_congr_left fun v hv => ?_
          simp only [scaled, (hmem v hv).1, (hmem v hv).2]
        have hfil : vs.filter (fun v => v.1 ∉ p.evars.erase e) = vs.filter (fun v => v.1 ∉ p.evars) := by
          refine List.filter_congr fun v hv => ?_
          simp only [(hmem v hv).1]
        have ih' := ih ⟨p.evars.erase e, if e ∈ p.evars then p.curls else p.curls.erase e,
          p.vects ++ [(e, (scaled p.evars p.curls (e, entries)).2)], need⟩ hn.2
        simp only [hu, hmap, hfil] at ih'
        have husable : Usable vars p.evars p.curls (e, entries) := ⟨hsc, fun k a ha hk => hc k a ha (mem_comps.2 hk)⟩
        constructor
        · intro hall
          obtain ⟨need', h'⟩ := ih'.1 fun v hv => hall v (List.mem_cons_of_mem _ hv)
          refine ⟨need', ?_⟩
          rw [h']
          simp only [List.foldl_cons, List.map_cons, List.append_assoc, List.singleton_append, scaled, Except.ok.injEq,
            Plan.mk.injEq, true_and, and_true]
          by_cases h1 : e ∈ p.evars
          · simp [h1]
          · simp [h1]
        · intro hall
          exact ih'.2 fun h => hall fun v hv => (List.mem_cons.1 hv).elim (fun h1 => h1 ▸ husable) (h v)
      · rw [(needOf_iff vars _ p.need).2 fun h => hc (hneed.1 h)]
        refine ⟨fun h => absurd ?_ hc, fun _ => rfl⟩
        exact fun k a ha hk => (h _ List.mem_cons_self).2 k a ha (mem_comps.1 hk)
    · rw [if_neg hsc]
      rw [hany] at hsc
      exact ⟨fun h => absurd (h _ List.mem_cons_self).1 hsc, fun _ => rfl⟩

theorem checkNames_iff (vars : List Name) (n : Names) :
    checkNames vars n = if n.mlat ∈ vars ∧ n.mlt ∈ vars ∧ (∀ e ∈ n.evars, e ∈ vars ∨ e ∈ n.vects.map Prod.fst) ∧
      (∀ e ∈ n.curls, e ∈ vars ∨ e ∈ n.vects.map Prod.fst) then .ok () else .error .valueError := by
  rw [checkNames]
  simp only [List.all_eq_true, decide_eq_true_eq]
  by_cases h1 : n.mlat ∈ vars
  · by_cases h2 : n.mlt ∈ vars
    · by_cases h3 : ∀ e ∈ n.evars, e ∈ vars ∨ e ∈ n.vects.map Prod.fst
      · by_cases h4 : ∀ e ∈ n.curls, e ∈ vars ∨ e ∈ n.vects.map Prod.fst
        · rw [if_neg (not_not.2 h1), if_neg (not_not.2 h2), if_neg (not_not.2 h3), if_neg (not_not.2 h4),
            if_pos ⟨h1, h2, h3, h4⟩]
        · rw [if_neg (not_not.2 h1), if_neg (not_not.2 h2), if_neg (not_not.2 h3), if_pos h4, if_neg fun h => h4 h.2.2.2]
      · rw [if_neg (not_not.2 h1), if_neg (not_not.2 h2), if_pos h3, if_neg fun h => h3 h.2.2.1]
    · rw [if_neg (not_not.2 h1), if_pos h2, if_neg fun h => h2 h.2.1]
  · rw [if_pos h1, if_neg fun h => h1 h.1]

theorem plan_eq (vars : List Name) (n : Names) (hn : (n.vects.map Prod.fst).Nodup) :
    (Known vars n → ∃ need, plan vars n = .ok
      ⟨n.vects.foldl (fun l v => l.erase v.1) n.evars,
        (n.vects.filter (fun v => v.1 ∉ n.evars)).foldl (fun l v => l.erase v.1) n.curls,
        n.vects.map (scaled n.evars n.curls), need⟩) ∧
      (¬ Known vars n → plan vars n = .error .valueError) := by
  have h := vectLoop_eq vars n.vects ⟨n.evars, n.curls, [], firstNeed vars n⟩ hn
  simp only [List.nil_append] at h
  rw [plan, checkNames_iff]
  by_cases hk : n.mlat ∈ vars ∧ n.mlt ∈ vars ∧ (∀ e ∈ n.evars, e ∈ vars ∨ e ∈ n.vects.map Prod.fst) ∧
      (∀ e ∈ n.curls, e ∈ vars ∨ e ∈ n.vects.map Prod.fst)
  · rw [if_pos hk]
    refine ⟨fun hK => h.1 hK.2.2.2.2, fun hK => h.2 fun hu => hK ⟨hk.1, hk.2.1, hk.2.2.1, hk.2.2.2, hu⟩⟩
  · rw [if_neg hk]
    exact ⟨fun hK => absurd ⟨hK.1, hK.2.1, hK.2.2.1, hK.2.2.2.1⟩ hk, fun _ => rfl⟩

theorem foldl_erase_none (vs : List (Name × List (Name × Arg))) (l : List Name) (h : ∀ v ∈ vs, v.1 ∉ l) :
    vs.foldl (fun l v => l.erase v.1) l = l := by
  induction vs with
  | nil => rfl
  | cons v vs ih =>
    rw [List.foldl_cons, List.erase_of_not_mem (h v List.mem_cons_self)]
    exact ih fun w hw => h w (List.mem_cons_of_mem _ hw)

theorem foldl_erase_mem (vs : List (Name × List (Name × Arg))) (l : List Name) (hl : l.Nodup) (x : Name) :
    x ∈ vs.foldl (fun l v => l.erase v.1) l ↔ x ∈ l ∧ x ∉ vs.map Prod.fst := by
  induction vs generalizing l with
  | nil => simp
  | cons v vs ih =>
    rw [List.foldl_cons, ih _ (hl.erase _), hl.mem_erase_iff]
    simp only [List.map_cons, List.mem_cons, not_or]
    tauto

/-! ## Theorems -/

/-- C99: the call is refused with ValueError exactly if a name is unknown, or a vector has no scaling function or an
unknown component. -/
theorem C99_refused (vars : List Name) (n : Names) (hn : (n.vects.map Prod.fst).Nodup) :
    (Known vars n ↔ ∃ p, plan vars n = .ok p) ∧ (∀ e, plan vars n = .error e → e = .valueError) := by
  obtain ⟨h1, h2⟩ := plan_eq vars n hn
  by_cases h : Known vars n
  · obtain ⟨need, h3⟩ := h1 h
    exact ⟨⟨fun _ => ⟨_, h3⟩, fun _ => h⟩, fun e he => by rw [h3] at he; simp at he⟩
  · refine ⟨⟨fun h' => absurd h' h, ?_⟩, fun e he => ?_⟩
    · rintro ⟨p, hp⟩
      rw [h2 h] at hp
      simp at hp
    · rw [h2 h] at he
      simpa using he.symm

/-- C99: a vector named in the list of the electric field is scaled as an electric field, one named only in the list of
its curl as a curl, and any other with its own function; all its other entries stay. -/
theorem C99_scale (vars : List Name) (n : Names) (hn : (n.vects.map Prod.fst).Nodup) (p : Plan)
    (hp : plan vars n = .ok p) (j : ℕ) (e : Name) (entries : List (Name × Arg))
    (hj : n.vects[j]? = some (e, entries)) :
    ∃ entries', p.vects[j]? = some (e, entries') ∧
      (∀ a, ("scale_func".toList, a) ∈ entries' ↔
        (e ∈ n.evars ∧ a = .fn .evar) ∨ (e ∉ n.evars ∧ e ∈ n.curls ∧ a = .fn .curl) ∨
          (e ∉ n.evars ∧ e ∉ n.curls ∧ ("scale_func".toList, a) ∈ entries)) ∧
      (∃ a, ("scale_func".toList, a) ∈ entries') ∧
      ∀ k a, k ≠ "scale_func".toList → ((k, a) ∈ entries' ↔ (k, a) ∈ entries) := by
  have hk : Known vars n := (C99_refused vars n hn).1.2 ⟨p, hp⟩
  obtain ⟨need, h⟩ := (plan_eq vars n hn).1 hk
  rw [h, Except.ok.injEq] at hp
  subst hp
  have hu := (hk.2.2.2.2 _ (List.mem_of_getElem? hj)).1
  refine ⟨(scaled n.evars n.curls (e, entries)).2, ?_, ?_, ?_, ?_⟩
  · rw [List.getElem?_map, hj, Option.map_some]
    rfl
  · intro a
    simp only [scaled]
    by_cases h1 : e ∈ n.evars
    · rw [if_pos h1, upd_self]
      exact ⟨fun h => .inl ⟨h1, h⟩, fun h => h.elim And.right fun h => h.elim (fun h => absurd h1 h.1) fun h => absurd h1 h.1⟩
    · rw [if_neg h1]
      by_cases h2 : e ∈ n.curls
      · rw [if_pos h2, upd_self]
        exact ⟨fun h => .inr (.inl ⟨h1, h2, h⟩),
          fun h => h.elim (fun h => absurd h.1 h1) fun h => h.elim (fun h => h.2.2) fun h => absurd h2 h.2.1⟩
      · rw [if_neg h2]
        exact ⟨fun h => .inr (.inr ⟨h1, h2, h⟩),
          fun h => h.elim (fun h => absurd h.1 h1) fun h => h.elim (fun h => absurd h.2.1 h2) fun h => h.2.2⟩
  · simp only [scaled]
    by_cases h1 : e ∈ n.evars
    · exact ⟨_, by rw [if_pos h1, upd_self]⟩
    · by_cases h2 : e ∈ n.curls
      · exact ⟨_, by rw [if_neg h1, if_pos h2, upd_self]⟩
      · rw [if_neg h1, if_neg h2]
        exact (hu.resolve_left h1).resolve_left h2
  · intro k a hk
    simp only [scaled]
    by_cases h1 : e ∈ n.evars
    · rw [if_pos h1, upd_mem hk]
    · rw [if_neg h1]
      by_cases h2 : e ∈ n.curls
      · rw [if_pos h2, upd_mem hk]
      · rw [if_neg h2]

/-- C99: the names left to be scaled as numbers are those of the lists that are not vectors, provided that no list
repeats a name and no vector is in both lists. -/
theorem C99_numbers (vars : List Name) (n : Names) (hn : (n.vects.map Prod.fst).Nodup) (p : Plan)
    (hp : plan vars n = .ok p) (h1 : n.evars.Nodup) (h2 : n.curls.Nodup)
    (h3 : ∀ v ∈ n.vects, ¬ (v.1 ∈ n.evars ∧ v.1 ∈ n.curls)) (x : Name) :
    (x ∈ p.evars ↔ x ∈ n.evars ∧ x ∉ n.vects.map Prod.fst) ∧ (x ∈ p.curls ↔ x ∈ n.curls ∧ x ∉ n.vects.map Prod.fst) := by
  have hk : Known vars n := (C99_refused vars n hn).1.2 ⟨p, hp⟩
  obtain ⟨need, h⟩ := (plan_eq vars n hn).1 hk
  rw [h, Except.ok.injEq] at hp
  subst hp
  refine ⟨foldl_erase_mem _ _ h1 x, ?_⟩
  simp only [foldl_erase_mem _ _ h2 x, List.mem_map, List.mem_filter, decide_eq_true_eq, not_exists, not_and]
  constructor
  · rintro ⟨hx, h⟩
    refine ⟨hx, fun v hv e => ?_⟩
    by_cases he : v.1 ∈ n.evars
    · exact h3 v hv ⟨he, e ▸ hx⟩
    · exact h v ⟨hv, he⟩ e
  · rintro ⟨hx, h⟩
    exact ⟨hx, fun v hv e => h v hv.1 e⟩

/-- C96: the lists and the dictionary that the caller hands over stay as they are if no vector is named in the lists.
What is missing: vectors named in the lists, see `C96_arguments_refuted`. -/
theorem C96_arguments_partial (vars : List Name) (n : Names) (hn : (n.vects.map Prod.fst).Nodup) (p : Plan)
    (hp : plan vars n = .ok p) (h : ∀ v ∈ n.vects, v.1 ∉ n.evars ∧ v.1 ∉ n.curls) :
    p.evars = n.evars ∧ p.curls = n.curls ∧ p.vects = n.vects := by
  have hk : Known vars n := (C99_refused vars n hn).1.2 ⟨p, hp⟩
  obtain ⟨need, h'⟩ := (plan_eq vars n hn).1 hk
  rw [h', Except.ok.injEq] at hp
  subst hp
  refine ⟨foldl_erase_none _ _ fun v hv => (h v hv).1, foldl_erase_none _ _ fun v hv => ?_, ?_⟩
  · exact (h v (List.mem_filter.1 hv).1).2
  · conv_rhs => rw [← List.map_id n.vects]
    refine List.map_congr_left fun v hv => ?_
    simp [scaled, (h v hv).1, (h v hv).2]

/-- Names of a call with one vector, as in the documentation. -/
def velNames : Names :=
  ⟨"lat".toList, "mlt".toList, ["vel".toList], [], [("vel".toList, [("vect_n".toList, .text "vn".toList),
    ("vect_e".toList, .text "ve".toList)])]⟩

/-- C96: a vector that is named in the list of the electric field is taken out of the caller's list, and its dictionary
gains an entry. -/
theorem C96_arguments_refuted :
    plan ["lat".toList, "mlt".toList, "vn".toList, "ve".toList] velNames =
        .ok ⟨[], [], [("vel".toList, [("vect_n".toList, .text "vn".toList), ("vect_e".toList, .text "ve".toList),
          ("scale_func".toList, .fn .evar)])], ["lat".toList, "mlt".toList, "vn".toList, "ve".toList]⟩ := by
  decide

/-- C96: a second call with the objects that the first call has changed works with the same lists and the same
dictionary, if no list repeats a name and no vector is in both lists.  What is missing: vectors named in both lists, which
the second call scales differently, see `C96_twice_refuted`. -/
theorem C96_twice_partial (vars : List Name) (n : Names) (hn : (n.vects.map Prod.fst).Nodup) (p : Plan)
    (hp : plan vars n = .ok p) (h1 : n.evars.Nodup) (h2 : n.curls.Nodup)
    (h3 : ∀ v ∈ n.vects, ¬ (v.1 ∈ n.evars ∧ v.1 ∈ n.curls)) :
    ∃ q, plan vars ⟨n.mlat, n.mlt, p.evars, p.curls, p.vects⟩ = .ok q ∧ q.evars = p.evars ∧ q.curls = p.curls ∧
      q.vects = p.vects := by
  have hnum := C99_numbers vars n hn p hp h1 h2 h3
  have hk : Known vars n := (C99_refused vars n hn).1.2 ⟨p, hp⟩
  have hsc := C99_scale vars n hn p hp
  obtain ⟨need, h'⟩ := (plan_eq vars n hn).1 hk
  have hvec : p.vects = n.vects.map (scaled n.evars n.curls) := by
    rw [h', Except.ok.injEq] at hp
    rw [← hp]
  have hkeys : p.vects.map Prod.fst = n.vects.map Prod.fst := by
    rw [hvec, List.map_map]
    exact List.map_congr_left fun v _ => rfl
  have hn' : (p.vects.map Prod.fst).Nodup := hkeys ▸ hn
  have hfree : ∀ v ∈ p.vects, v.1 ∉ p.evars ∧ v.1 ∉ p.curls := by
    intro v hv
    have : v.1 ∈ n.vects.map Prod.fst := hkeys ▸ List.mem_map_of_mem hv
    exact ⟨fun h => ((hnum v.1).1.1 h).2 this, fun h => ((hnum v.1).2.1 h).2 this⟩
  have hk' : Known vars ⟨n.mlat, n.mlt, p.evars, p.curls, p.vects⟩ := by
    refine ⟨hk.1, hk.2.1, fun e he => ?_, fun e he => ?_, fun v hv => ?_⟩
    · have := (hnum e).1.1 he
      exact .inl ((hk.2.2.1 e this.1).resolve_right this.2)
    · have := (hnum e).2.1 he
      exact .inl ((hk.2.2.2.1 e this.1).resolve_right this.2)
    · obtain ⟨j, hj⟩ := List.mem_iff_getElem?.1 hv
      have hj' : ∃ w, n.vects[j]? = some w := by
        rw [hvec, List.getElem?_map, Option.map_eq_some_iff] at hj
        obtain ⟨w, hw, -⟩ := hj
        exact ⟨w, hw⟩
      obtain ⟨⟨e, entries⟩, hw⟩ := hj'
      obtain ⟨entries', g1, -, g3, g4⟩ := hsc j e entries hw
      rw [hj, Option.some.injEq] at g1
      subst g1
      refine ⟨.inr (.inr g3), fun k a ha hc => ?_⟩
      have hne : k ≠ "scale_func".toList := comps_ne (mem_comps.2 hc)
      exact (hk.2.2.2.2 _ (List.mem_of_getElem? hw)).2 k a ((g4 k a hne).1 ha) hc
  obtain ⟨q, hq⟩ := (C99_refused vars ⟨n.mlat, n.mlt, p.evars, p.curls, p.vects⟩ hn').1.1 hk'
  exact ⟨q, hq, C96_arguments_partial vars ⟨n.mlat, n.mlt, p.evars, p.curls, p.vects⟩ hn' q hq hfree⟩

/-- The function with which the first vector is scaled. -/
def scaleOf (p : Plan) : Option Arg := (p.vects.head?.bind fun v => (v.2.find? fun k => k.1 == "scale_func".toList)).map Prod.snd

/-- C96: a vector named in both lists is scaled as an electric field by the first call and as a curl by the second. -/
theorem C96_twice_refuted :
    ∃ (vars : List Name) (n : Names) (p q : Plan), plan vars n = .ok p ∧
      plan vars ⟨n.mlat, n.mlt, p.evars, p.curls, p.vects⟩ = .ok q ∧ scaleOf p = some (.fn .evar) ∧
      scaleOf q = some (.fn .curl) := by
  refine ⟨["lat".toList, "mlt".toList, "vn".toList, "vel".toList],
    ⟨"lat".toList, "mlt".toList, ["vel".toList], ["vel".toList], [("vel".toList, [("vect_n".toList, .text "vn".toList)])]⟩,
    ⟨[], ["vel".toList], [("vel".toList, [("vect_n".toList, .text "vn".toList), ("scale_func".toList, .fn .evar)])],
      ["lat".toList, "mlt".toList, "vel".toList, "vn".toList]⟩,
    ⟨[], [], [("vel".toList, [("vect_n".toList, .text "vn".toList), ("scale_func".toList, .fn .curl)])],
      ["lat".toList, "mlt".toList, "vel".toList, "vn".toList]⟩, by decide, by decide, by decide, by decide⟩

/-- The hypotheses of the theorems above for the names of the documentation. -/
example : (velNames.vects.map Prod.fst).Nodup ∧ velNames.evars.Nodup ∧ velNames.curls.Nodup ∧
    ∀ v ∈ velNames.vects, ¬ (v.1 ∈ velNames.evars ∧ v.1 ∈ velNames.curls) := by
  decide

end Ocb.Pysat
