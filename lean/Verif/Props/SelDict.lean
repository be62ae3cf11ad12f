import Verif.Model.SelDict
import Verif.Props.Pairs

/-!
# C172: dictionaries of selection criteria
-/

set_option autoImplicit false

namespace Ocb.Cycle

/-- The dictionary holds the criteria `kw` and perhaps limits of the figure of merit. -/
inductive Lists : Dict → List Criterion → Prop
  | nil : Lists [] []
  | crit {d kw} (k op : String) (b : Fl ℚ) (hk : k ≠ "min_merit" ∧ k ≠ "max_merit") : Lists d kw →
      Lists ((k, .crit op b) :: d) (⟨k, op, b⟩ :: kw)
  | limit {d kw} (k : String) (v : DVal) (hk : k = "min_merit" ∨ k = "max_merit") : Lists d kw → Lists ((k, v) :: d) kw

theorem Lists.crits {d : Dict} {kw : List Criterion} (h : Lists d kw) : d.crits = .ok kw := by
  unfold Dict.crits
  induction h with
  | nil => rfl
  | crit k op b hk _ ih =>
    rw [List.filter_cons_of_pos (by simp [isLimit, hk.1, hk.2]), mapE, ih]
  | limit k v hk _ ih =>
    rw [List.filter_cons_of_neg (by rcases hk with rfl | rfl <;> simp [isLimit]), ih]

theorem Lists.append {d d' : Dict} {kw kw' : List Criterion} (h : Lists d kw) (h' : Lists d' kw') :
    Lists (d ++ d') (kw ++ kw') := by
  induction h with
  | nil => exact h'
  | crit k op b hk _ ih => exact .crit k op b hk ih
  | limit k v hk _ ih => exact .limit k v hk ih

theorem Lists.set {d : Dict} {kw : List Criterion} (h : Lists d kw) {k : String} (hk : k = "min_merit" ∨ k = "max_merit")
    (v : DVal) : Lists (d.set k v) kw := by
  unfold Dict.set
  split
  · rename_i hany
    clear hany
    induction h with
    | nil => exact .nil
    | crit k' op b hk' _ ih =>
      rw [List.map_cons, if_neg (by rcases hk with rfl | rfl <;> simp [hk'.1, hk'.2])]
      exact .crit k' op b hk' ih
    | limit k' v' hk' _ ih =>
      rw [List.map_cons]
      by_cases he : k' = k
      · rw [if_pos (by simpa using he)]
        exact .limit k v hk ih
      · rw [if_neg (by simpa using he)]
        exact .limit k' v' hk' ih
  · have := h.append (.limit k v hk .nil)
    rwa [List.append_nil] at this

theorem Lists.enter {d : Dict} {kw : List Criterion} (h : Lists d kw) (mn mx : Option (Fl ℚ)) : Lists (d.enter mn mx) kw :=
  (h.set (.inl rfl) _).set (.inr rfl) _

theorem get_set_same (d : Dict) (k : String) (v : DVal) : (d.set k v).get k = some v := by
  unfold Dict.set
  split
  · rename_i h
    induction d with
    | nil => simp at h
    | cons p d ih =>
      unfold Dict.get at ih ⊢
      by_cases hp : p.1 = k
      · simp [hp]
      · rw [List.map_cons, if_neg (by simpa using hp), List.find?_cons_of_neg (by simpa using hp)]
        exact ih (by simpa [hp] using h)
  · rename_i h
    unfold Dict.get
    rw [List.find?_append, List.find?_eq_none.2 (by
      intro x hx hc
      exact h (List.any_eq_true.2 ⟨x, hx, hc⟩))]
    simp

theorem get_set_other (d : Dict) {k k' : String} (hne : k' ≠ k) (v : DVal) : (d.set k v).get k' = d.get k' := by
  unfold Dict.set
  split
  · rename_i h
    clear h
    unfold Dict.get
    induction d with
    | nil => rfl
    | cons p d ih =>
      rw [List.map_cons]
      by_cases hp : p.1 = k
      · rw [if_pos (by simpa using hp), List.find?_cons_of_neg (by simpa using fun h => hne h.symm),
          List.find?_cons_of_neg (by rw [hp]; simpa using fun h => hne h.symm)]
        exact ih
      · rw [if_neg (by simpa using hp)]
        by_cases hp' : p.1 = k'
        · rw [List.find?_cons_of_pos (by simpa using hp'), List.find?_cons_of_pos (by simpa using hp')]
        · rw [List.find?_cons_of_neg (by simpa using hp'), List.find?_cons_of_neg (by simpa using hp')]
          exact ih
  · unfold Dict.get
    rw [List.find?_append]
    cases d.find? (·.1 == k') with
    | some x => rfl
    | none => simpa using fun h => hne h.symm

theorem get_enter (d : Dict) (mn mx : Option (Fl ℚ)) :
    (d.enter mn mx).get "min_merit" = some (.limit mn) ∧ (d.enter mn mx).get "max_merit" = some (.limit mx) := by
  unfold Dict.enter
  exact ⟨by rw [get_set_other _ (by decide), get_set_same], get_set_same _ _ _⟩

theorem unpack_enter {d : Dict} {kw : List Criterion} (h : Lists d kw) (mn mx : Option (Fl ℚ)) :
    (d.enter mn mx).unpack = .ok ⟨mn, mx, kw⟩ := by
  unfold Dict.unpack Dict.limit
  rw [(get_enter d mn mx).1, (get_enter d mn mx).2, (h.enter mn mx).crits]
  rfl

/-- The criteria in an argument. -/
def ArgLists (h : Dicts) (a : Option ℕ) (kw : List Criterion) : Prop :=
  match a with
  | none => kw = []
  | some i => Lists (h i) kw

theorem enterArg_unpack {h : Dicts} {a : Option ℕ} {kw : List Criterion} (ha : ArgLists h a kw) (mn mx : Option (Fl ℚ)) :
    (enterArg h a mn mx).1.unpack = .ok ⟨mn, mx, kw⟩ := by
  cases a with
  | none => cases ha; exact unpack_enter .nil mn mx
  | some i => exact unpack_enter ha mn mx

theorem enterArg_lists {h : Dicts} {a b : Option ℕ} {kw : List Criterion} (hb : ArgLists h b kw) (mn mx : Option (Fl ℚ)) :
    ArgLists (enterArg h a mn mx).2 b kw := by
  cases b with
  | none => exact hb
  | some j =>
    cases a with
    | none => exact hb
    | some i =>
      show Lists (Function.update h i _ j) kw
      by_cases hij : j = i
      · subst hij
        rw [Function.update_self]
        exact Lists.enter hb mn mx
      · rw [Function.update_of_ne hij]
        exact hb

/-- C172: the pairs are those for the criteria in the dictionaries and the given limits, also if one object is passed for
both boundaries, and whatever limits the dictionaries contain. -/
theorem C172_pairs_partial (ocb eab : Bnd) (h : Dicts) (oArg eArg : Option ℕ) (kwo kwe : List Criterion)
    (ho : ArgLists h oArg kwo) (he : ArgLists h eArg kwe) (oMin oMax eMin eMax : Option (Fl ℚ)) (maxDelta : ℤ) :
    (setGoodDict ocb eab h oArg eArg oMin oMax eMin eMax maxDelta).1 =
      setGoodInd ocb eab ⟨oMin, oMax, kwo⟩ ⟨eMin, eMax, kwe⟩ maxDelta := by
  unfold setGoodDict setGoodInd
  simp only [enterArg_unpack ho]
  cases retrieveAll ocb oMin oMax kwo 0 with
  | error e => rfl
  | ok x =>
    obtain ⟨good, q⟩ := x
    simp only [enterArg_unpack (enterArg_lists he _ _)]
    rfl

/-- C172: a call does not influence the pairs of a later one with the same dictionaries. -/
theorem C172_repeat_partial (ocb eab : Bnd) (h : Dicts) (oArg eArg oArg' eArg' : Option ℕ) (kwo kwe : List Criterion)
    (ho : ArgLists h oArg' kwo) (he : ArgLists h eArg' kwe) (a b c d a' b' c' d' : Option (Fl ℚ)) (maxDelta maxDelta' : ℤ) :
    (setGoodDict ocb eab (setGoodDict ocb eab h oArg eArg a b c d maxDelta).2 oArg' eArg' a' b' c' d' maxDelta').1 =
      (setGoodDict ocb eab h oArg' eArg' a' b' c' d' maxDelta').1 := by
  have key : ∀ (x : Option ℕ) (kw : List Criterion), ArgLists h x kw →
      ArgLists (setGoodDict ocb eab h oArg eArg a b c d maxDelta).2 x kw := by
    intro x kw hx
    unfold setGoodDict
    simp only
    split
    · exact enterArg_lists hx _ _
    · split
      · exact enterArg_lists hx _ _
      · split
        · exact enterArg_lists (enterArg_lists hx _ _) _ _
        · exact enterArg_lists (enterArg_lists hx _ _) _ _
  rw [C172_pairs_partial _ _ _ _ _ _ _ (key _ _ ho) (key _ _ he), C172_pairs_partial _ _ _ _ _ _ _ ho he]

/-- C172, refuted: the dictionary passed for the OCB is changed by the call: it contains the limits afterwards, so that a
later `get_next_good_ocb_ind` with the criteria of this dictionary applies limits that it did not apply before. -/
theorem C172_leak_refuted (ocb eab : Bnd) (h : Dicts) (i : ℕ) (eArg : Option ℕ) (hne : eArg ≠ some i) (kw : List Criterion)
    (ho : Lists (h i) kw) (hmin : (h i).get "min_merit" = none) (hmax : (h i).get "max_merit" = none)
    (oMin oMax eMin eMax : Option (Fl ℚ)) (maxDelta : ℤ) :
    (setGoodDict ocb eab h (some i) eArg oMin oMax eMin eMax maxDelta).2 i ≠ h i ∧
      ∀ rec, getNextDict ocb h i rec = getNext ocb none none kw rec ∧
        getNextDict ocb (setGoodDict ocb eab h (some i) eArg oMin oMax eMin eMax maxDelta).2 i rec =
          getNext ocb oMin oMax kw rec := by
  have hd : (setGoodDict ocb eab h (some i) eArg oMin oMax eMin eMax maxDelta).2 i = Dict.enter (h i) oMin oMax := by
    have h1 : (enterArg h (some i) oMin oMax).2 i = Dict.enter (h i) oMin oMax := by simp [enterArg]
    have h2 : ∀ g : Dicts, (enterArg g eArg eMin eMax).2 i = g i := by
      intro g
      cases eArg with
      | none => rfl
      | some j =>
        show Function.update g j _ i = _
        rw [Function.update_of_ne (fun hc => hne (by rw [hc]))]
    unfold setGoodDict
    simp only
    split
    · exact h1
    · split
      · exact h1
      · split
        · rw [h2]; exact h1
        · rw [h2]; exact h1
  refine ⟨?_, fun rec => ⟨?_, ?_⟩⟩
  · rw [hd]
    intro hc
    have := (get_enter (h i) oMin oMax).1
    rw [hc, hmin] at this
    cases this
  · unfold getNextDict Dict.unpack Dict.limit
    rw [hmin, hmax, ho.crits]
    rfl
  · unfold getNextDict
    rw [hd, unpack_enter ho]
    rfl

/-- Limits in a dictionary are lost: the pairs are the same as without them. -/
theorem C172_limits_refuted (ocb eab : Bnd) (h : Dicts) (i : ℕ) (kw : List Criterion) (ho : Lists (h i) kw)
    (x : Fl ℚ) (eArg : Option ℕ) (kwe : List Criterion) (he : ArgLists h eArg kwe) (maxDelta : ℤ)
    (hne : eArg ≠ some i) :
    (setGoodDict ocb eab (Function.update h i ((h i).set "min_merit" (.limit (some x)))) (some i) eArg none none none none
        maxDelta).1 = setGoodInd ocb eab ⟨none, none, kw⟩ ⟨none, none, kwe⟩ maxDelta := by
  refine C172_pairs_partial _ _ _ _ _ _ _ ?_ ?_ _ _ _ _ _
  · show Lists (Function.update h i _ i) kw
    rw [Function.update_self]
    exact ho.set (.inl rfl) _
  · cases eArg with
    | none => exact he
    | some j =>
      show Lists (Function.update h i _ j) kwe
      rw [Function.update_of_ne (fun hc => hne (by rw [hc]))]
      exact he

/-- A dictionary with one criterion, passed for both boundaries of two records each; and the change that a lower limit of 5
makes: record 0 with figure of merit 1 is no longer found with the dictionary after the call. -/
example : Lists [("r_cent", .crit "max" (.fin 10))] [⟨"r_cent", "max", .fin 10⟩] ∧
    Dict.get [("r_cent", .crit "max" (.fin 10))] "min_merit" = none ∧
    getNext ⟨[0, 60], [.fin 1, .fin 7], [], .fin 0, .pinf⟩ none none [⟨"r_cent", "max", .fin 10⟩] (-1) = .ok 0 ∧
    getNext ⟨[0, 60], [.fin 1, .fin 7], [], .fin 0, .pinf⟩ (some (.fin 5)) none [⟨"r_cent", "max", .fin 10⟩] (-1) = .ok 1 :=
  ⟨.crit _ _ _ (by decide) .nil, rfl, by decide +kernel, by decide +kernel⟩

end Ocb.Cycle
