import Verif.Model.Pysat
import Mathlib.Data.List.Infix
import Mathlib.Tactic.Linarith
import Mathlib.Tactic.NormNum

/-! # C89, C90, C91, C95, C96, C97, C99: rows, dictionaries and columns of `add_ocb_to_data` -/

set_option autoImplicit false

namespace Ocb.Pysat

open Ocb.Files Ocb.Cycle

/-! ## C97: the hemisphere of the data -/

theorem sgn_pos {x : ℝ} : sgn x = 1 ↔ 0 < x := by
  unfold sgn; split_ifs <;> simp_all

theorem sgn_neg {x : ℝ} : sgn x = -1 ↔ x < 0 := by
  unfold sgn; split_ifs with h1 h2
  · simp; linarith
  · simpa using h2
  · simpa using h2

theorem sgn_zero {x : ℝ} : sgn x = 0 ↔ x = 0 := by
  unfold sgn; split_ifs with h1 h2
  · simp; linarith
  · simp; linarith
  · simp; linarith

theorem mem_nums {l : List (Option ℝ)} {x : ℝ} : x ∈ nums l ↔ some x ∈ l := by
  simp [nums]

theorem nanmax_iff {l : List (Option ℝ)} {m : ℝ} :
    nanmax l = some m ↔ some m ∈ l ∧ ∀ x, some x ∈ l → x ≤ m := by
  rw [nanmax, List.max?_eq_some_iff]
  simp only [mem_nums]

theorem nanmin_iff {l : List (Option ℝ)} {m : ℝ} :
    nanmin l = some m ↔ some m ∈ l ∧ ∀ x, some x ∈ l → m ≤ x := by
  rw [nanmin, List.min?_eq_some_iff]
  simp only [mem_nums]

theorem nan_none {l : List (Option ℝ)} (h : ¬ ∃ x, some x ∈ l) : nanmax l = none := by
  have : nums l = [] := by
    rw [List.eq_nil_iff_forall_not_mem]
    intro x hx
    exact h ⟨x, mem_nums.1 hx⟩
  rw [nanmax, this]; rfl

theorem nan_some {l : List (Option ℝ)} (h : ∃ x, some x ∈ l) : ∃ hi lo, nanmax l = some hi ∧ nanmin l = some lo := by
  obtain ⟨x, hx⟩ := h
  have hne : nums l ≠ [] := List.ne_nil_of_mem (mem_nums.2 hx)
  obtain ⟨hi, h1⟩ : ∃ hi, nanmax l = some hi := by
    cases e : nanmax l with
    | none => exact absurd (List.max?_eq_none_iff.1 e) hne
    | some a => exact ⟨a, rfl⟩
  obtain ⟨lo, h2⟩ : ∃ lo, nanmin l = some lo := by
    cases e : nanmin l with
    | none => exact absurd (List.min?_eq_none_iff.1 e) hne
    | some a => exact ⟨a, rfl⟩
  exact ⟨hi, lo, h1, h2⟩

/-- C97: a hemisphere that is given is used; otherwise it is the northern one exactly if there are data and all latitudes
that are not NaN are positive, the southern one exactly if none is positive and one is negative, and 0 exactly if there
are data and all are zero; in all other cases the call raises ValueError. -/
theorem C97_hemisphere (h : ℤ) (lat : List (Option ℝ)) :
    (h ≠ 0 → chooseHemi h lat = .ok h) ∧
      (h = 0 → (chooseHemi h lat = .ok 1 ↔ (∃ x, some x ∈ lat) ∧ ∀ x, some x ∈ lat → 0 < x) ∧
        (chooseHemi h lat = .ok (-1) ↔ (∃ x, some x ∈ lat ∧ x < 0) ∧ ∀ x, some x ∈ lat → x ≤ 0) ∧
        (chooseHemi h lat = .ok 0 ↔ (∃ x, some x ∈ lat) ∧ ∀ x, some x ∈ lat → x = 0) ∧
        (chooseHemi h lat = .error .valueError ↔
          (∀ x, some x ∉ lat) ∨ ((∃ x, some x ∈ lat ∧ 0 < x) ∧ ∃ x, some x ∈ lat ∧ x ≤ 0))) := by
  refine ⟨fun hh => by rw [chooseHemi, if_neg hh], ?_⟩
  rintro rfl
  rw [chooseHemi, if_pos rfl]
  by_cases hx : ∃ x, some x ∈ lat
  · obtain ⟨hi, lo, h1, h2⟩ := nan_some hx
    rw [h1, h2]
    rw [nanmax_iff] at h1
    rw [nanmin_iff] at h2
    simp only
    have hle := h2.2 hi h1.1
    by_cases z : sgn hi = 0
    · rw [if_pos z]
      rw [sgn_zero] at z
      simp only [Except.ok.injEq, sgn_pos, sgn_neg, sgn_zero, reduceCtorEq, false_iff]
      refine ⟨⟨fun h => ?_, fun h => ?_⟩, ⟨fun h => ?_, fun h => ?_⟩, ⟨fun h => ?_, fun h => ?_⟩, ?_⟩
      · linarith
      · exact h.2 _ h2.1
      · exact ⟨⟨lo, h2.1, h⟩, fun x hx => (h1.2 x hx).trans z.le⟩
      · obtain ⟨⟨x, hx, hn⟩, -⟩ := h
        exact (h2.2 x hx).trans_lt hn
      · exact ⟨hx, fun x hx => le_antisymm ((h1.2 x hx).trans z.le) (h ▸ h2.2 x hx)⟩
      · exact h.2 _ h2.1
      · rintro (h | ⟨⟨x, hx, hp⟩, -⟩)
        · exact h _ h1.1
        · linarith [h1.2 x hx]
    · rw [if_neg z]
      by_cases hne : sgn hi ≠ sgn lo
      · rw [if_pos hne]
        simp only [reduceCtorEq, false_iff, true_iff]
        have hpos : 0 < hi := by
          by_contra hc
          have hneg : hi < 0 := lt_of_le_of_ne (not_lt.1 hc) fun e => z (sgn_zero.2 e)
          exact hne ((sgn_neg.2 hneg).trans (sgn_neg.2 (hle.trans_lt hneg)).symm)
        have hlo : lo ≤ 0 := by
          by_contra hc
          exact hne ((sgn_pos.2 hpos).trans (sgn_pos.2 (not_le.1 hc)).symm)
        refine ⟨fun h => ?_, fun h => ?_, fun h => ?_, .inr ⟨⟨hi, h1.1, hpos⟩, lo, h2.1, hlo⟩⟩
        · linarith [h.2 _ h2.1]
        · linarith [h.2 _ h1.1]
        · linarith [h.2 _ h1.1]
      · rw [if_neg hne]
        push Not at hne
        simp only [Except.ok.injEq, sgn_pos, sgn_neg, sgn_zero, reduceCtorEq, false_iff]
        refine ⟨⟨fun h => ?_, fun h => ?_⟩, ⟨fun h => ?_, fun h => ?_⟩, ⟨fun h => ?_, fun h => ?_⟩, ?_⟩
        · have hl := sgn_pos.1 (hne ▸ sgn_pos.2 h)
          exact ⟨hx, fun x hx => hl.trans_le (h2.2 x hx)⟩
        · exact h.2 _ h1.1
        · exact ⟨⟨hi, h1.1, h⟩, fun x hx => (h1.2 x hx).trans h.le⟩
        · refine lt_of_le_of_ne (h.2 _ h1.1) fun e => z (sgn_zero.2 e)
        · exact absurd (sgn_zero.2 h) z
        · exact h.2 _ h1.1
        · rintro (h | ⟨⟨x, hx, hp⟩, y, hy, hq⟩)
          · exact h _ h1.1
          · have hl := sgn_pos.1 (hne ▸ sgn_pos.2 (hp.trans_le (h1.2 x hx)))
            linarith [h2.2 y hy]
  · rw [nan_none hx]
    simp only [reduceCtorEq, false_iff, true_iff]
    refine ⟨fun h => hx h.1, fun h => ?_, fun h => hx h.1, .inl fun x h => hx ⟨x, h⟩⟩
    obtain ⟨⟨x, h, -⟩, -⟩ := h
    exact hx ⟨x, h⟩

/-- C97: data on the equator are accepted together with southern data but not together with northern data. -/
theorem C97_equator_refuted :
    chooseHemi 0 [some (-60), some 0] = .ok (-1) ∧ chooseHemi 0 [some 60, some 0] = .error .valueError := by
  constructor
  · rw [((C97_hemisphere 0 _).2 rfl).2.1]
    refine ⟨⟨-60, by simp, by norm_num⟩, ?_⟩
    intro x hx
    simp only [List.mem_cons, Option.some.injEq, List.not_mem_nil, or_false] at hx
    rcases hx with rfl | rfl <;> norm_num
  · rw [((C97_hemisphere 0 _).2 rfl).2.2.2]
    exact .inr ⟨⟨60, by simp, by norm_num⟩, 0, by simp, le_rfl⟩

/-! ## C89, C95: the rows used -/

theorem skipMax_spec (a b : V) :
    (skipMax a b ≠ .pinf ↔ a ≠ .pinf ∧ b ≠ .pinf) ∧
      (a ≠ .pinf → b ≠ .pinf → (isFin (skipMax a b) = true ↔ isFin a = true ∨ isFin b = true)) := by
  cases a <;> cases b <;> simp [skipMax, Fl.le, isFin]
  split_ifs <;> simp

theorem rowMax_aux (l : List V) (a : V) :
    isFin (l.foldl skipMax a) = true ↔ a ≠ .pinf ∧ .pinf ∉ l ∧ (isFin a = true ∨ ∃ x ∈ l, isFin x = true) := by
  induction l generalizing a with
  | nil =>
    cases a <;> simp [isFin]
  | cons x l ih =>
    rw [List.foldl_cons, ih]
    obtain ⟨h1, h2⟩ := skipMax_spec a x
    rw [h1]
    constructor
    · rintro ⟨⟨ha, hx⟩, hl, hf⟩
      rw [h2 ha hx] at hf
      refine ⟨ha, by simp [hl, Ne.symm hx], ?_⟩
      rcases hf with (h | h) | ⟨y, hy, h⟩
      · exact .inl h
      · exact .inr ⟨x, by simp, h⟩
      · exact .inr ⟨y, by simp [hy], h⟩
    · rintro ⟨ha, hl, hf⟩
      simp only [List.mem_cons, not_or] at hl
      have hx : x ≠ .pinf := Ne.symm hl.1
      refine ⟨⟨ha, hx⟩, hl.2, ?_⟩
      rw [h2 ha hx]
      rcases hf with h | ⟨y, hy, h⟩
      · exact .inl (.inl h)
      · rcases List.mem_cons.1 hy with rfl | hy
        · exact .inl (.inr h)
        · exact .inr ⟨y, hy, h⟩

/-- A number of the hemisphere asked for. -/
def InHemi (h : ℤ) (v : V) : Prop := ∃ x : ℝ, v = .fin x ∧ ((h = 1 ∧ 0 < x) ∨ (h = -1 ∧ x < 0))

/-- C89: the rows used are exactly those with a latitude in the hemisphere and with no value of plus infinity among the
columns needed, for latitudes that are not infinite.  What is missing: a row is used even if values other than the
latitude are NaN or minus infinity, see `C89_finite_refuted`; without such values the selection is as documented. -/
theorem C89_rows_partial (t : Table) (mlat : Name) (need : List Name) (h : ℤ) (i : ℕ) (hh : h = 1 ∨ h = -1)
    (hm : mlat ∈ need) (hl : t.cell mlat i ≠ .pinf ∧ t.cell mlat i ≠ .ninf) :
    (i ∈ usedRows t mlat need h ↔ i < t.rows ∧ InHemi h (t.cell mlat i) ∧ ∀ k ∈ need, t.cell k i ≠ .pinf) ∧
      ((∀ k ∈ need, t.cell k i ≠ .nan ∧ t.cell k i ≠ .ninf) →
        (i ∈ usedRows t mlat need h ↔ i < t.rows ∧ InHemi h (t.cell mlat i) ∧ ∀ k ∈ need, ∃ x, t.cell k i = .fin x)) := by
  have key : i ∈ usedRows t mlat need h ↔ i < t.rows ∧ InHemi h (t.cell mlat i) ∧ ∀ k ∈ need, t.cell k i ≠ .pinf := by
    simp only [usedRows, List.mem_filter, List.mem_range, rowUsed, Bool.and_eq_true, rowMax, rowMax_aux]
    have e : signIs (t.cell mlat i) h = true ↔ InHemi h (t.cell mlat i) := by
      cases hc : t.cell mlat i with
      | nan => simp [signIs, InHemi]
      | pinf => exact absurd hc hl.1
      | ninf => exact absurd hc hl.2
      | fin x =>
        simp only [signIs, beq_iff_eq, InHemi, Fl.fin.injEq, exists_eq_left']
        rcases hh with rfl | rfl
        · simp [sgn_pos]
        · simp [sgn_neg]
    rw [e]
    constructor
    · rintro ⟨h1, h2, h3, h4, h5⟩
      refine ⟨h1, h2, fun k hk e => h4 ?_⟩
      rw [← e]
      exact List.mem_map_of_mem (f := fun k => t.cell k i) hk
    · rintro ⟨h1, h2, h3⟩
      refine ⟨h1, h2, by simp, ?_, .inr ?_⟩
      · rw [List.mem_map]
        rintro ⟨k, hk, e⟩
        exact h3 k hk e
      · obtain ⟨x, hx, -⟩ := h2
        exact ⟨t.cell mlat i, List.mem_map_of_mem (f := fun k => t.cell k i) hm, by rw [hx]; rfl⟩
  refine ⟨key, fun hn => ?_⟩
  rw [key]
  refine and_congr_right fun _ => and_congr_right fun _ => ?_
  constructor
  · intro h k hk
    have := hn k hk
    have := h k hk
    cases hc : t.cell k i with
    | fin x => exact ⟨x, rfl⟩
    | _ => simp_all
  · rintro h k hk e
    obtain ⟨x, hx⟩ := h k hk
    rw [hx] at e
    simp at e

/-- C89: a row without a local time (NaN) is used, and so is one with a measurement of minus infinity. -/
theorem C89_finite_refuted (t : Table) (lat mlt dat : Name) (i : ℕ) (hi : i < t.rows) (hl : t.cell lat i = .fin 80)
    (hm : t.cell mlt i = .nan) (hd : t.cell dat i = .ninf) : i ∈ usedRows t lat [lat, mlt, dat] 1 := by
  rw [(C89_rows_partial t lat [lat, mlt, dat] 1 i (.inl rfl) (by simp) (by simp [hl])).1]
  refine ⟨hi, ⟨80, hl, .inl ⟨rfl, by norm_num⟩⟩, ?_⟩
  simp [hl, hm, hd]

/-- A table with such a row. -/
example : ∃ (t : Table) (lat mlt dat : Name), 0 < t.rows ∧ t.cell lat 0 = .fin 80 ∧ t.cell mlt 0 = .nan ∧
    t.cell dat 0 = .ninf :=
  ⟨⟨[['a'], ['b'], ['c']], 1, fun n _ => if n = ['a'] then .fin 80 else if n = ['b'] then .nan else .ninf, fun _ => 0⟩,
    ['a'], ['b'], ['c'], by decide, rfl, rfl, rfl⟩

/-- C95: data in an xarray set: for the northern hemisphere exactly the positive latitudes are kept.  What is missing:
the southern hemisphere, see `C95_south_refuted`. -/
theorem C95_north_partial (x : ℝ) : xarrayHemi x 1 = true ↔ 0 < x := by
  rw [xarrayHemi, decide_eq_true_eq, ← sgn_pos]
  constructor
  · intro h
    unfold sgn at *
    split_ifs at * <;> simp_all
  · intro h; rw [h]

/-- C95: for the southern hemisphere every latitude is kept, also the northern ones. -/
theorem C95_south_refuted (x : ℝ) : xarrayHemi x (-1) = true := by
  rw [xarrayHemi, decide_eq_true_eq]
  unfold sgn
  split_ifs <;> decide

/-! ## C90: the dictionaries of the vectors -/

/-- The dictionary that a vector should get: the defaults, replaced by its own entries. -/
def own (t : Table) (i : ℕ) (d : Init) (entries : List (Name × Arg)) : Init :=
  entries.foldl (fun d k => setInit t i d k.1 k.2) d

theorem own_out (t : Table) (i : ℕ) (d : Init) (entries : List (Name × Arg)) (k : Name)
    (h : k ∉ entries.map Prod.fst) : own t i d entries k = d k := by
  induction entries generalizing d with
  | nil => rfl
  | cons e es ih =>
    simp only [List.map_cons, List.mem_cons, not_or] at h
    rw [own, List.foldl_cons]
    have := ih (setInit t i d e.1 e.2) h.2
    rw [own] at this
    rw [this]
    simp only [setInit, if_neg h.1]

theorem own_in (t : Table) (i : ℕ) (d d' : Init) (entries : List (Name × Arg)) (k : Name)
    (h : k ∈ entries.map Prod.fst) : own t i d entries k = own t i d' entries k := by
  induction entries generalizing d d' with
  | nil => simp at h
  | cons e es ih =>
    rw [own, List.foldl_cons, own, List.foldl_cons]
    by_cases hk : k ∈ es.map Prod.fst
    · exact ih _ _ hk
    · simp only [List.map_cons, List.mem_cons] at h
      have he : k = e.1 := h.resolve_right hk
      have h1 := own_out t i (setInit t i d e.1 e.2) es k hk
      have h2 := own_out t i (setInit t i d' e.1 e.2) es k hk
      rw [own] at h1 h2
      rw [h1, h2]
      simp only [setInit, if_pos he]

/-- The value of an entry is the cell of the row if the text is the name of a variable, and otherwise the text or
function itself. -/
theorem own_value (t : Table) (i : ℕ) (d : Init) (entries : List (Name × Arg)) (k v : Name)
    (hn : (entries.map Prod.fst).Nodup) (h : (k, Arg.text v) ∈ entries) :
    own t i d entries k = some (if v ∈ t.vars then .num (t.cell v i) else .text v) := by
  induction entries generalizing d with
  | nil => simp at h
  | cons e es ih =>
    simp only [List.map_cons, List.nodup_cons] at hn
    rw [own, List.foldl_cons]
    rcases List.mem_cons.1 h with rfl | h
    · have := own_out t i (setInit t i d k (.text v)) es k hn.1
      rw [own] at this
      simp only [this, setInit, if_true]
    · exact ih _ hn.2 h

/-- C90: a vector gets the defaults replaced by its own entries if it names every key that a vector before it names; in
particular the first vector does.  What is missing: vectors that leave out a key, see `C90_leak_refuted`. -/
theorem C90_own_partial (t : Table) (i : ℕ) (d : Init) (vects : List (Name × List (Name × Arg))) (j : ℕ) (e : Name)
    (entries : List (Name × Arg)) (hj : vects[j]? = some (e, entries))
    (hk : ∀ v ∈ vects.take j, ∀ k ∈ v.2.map Prod.fst, k ∈ entries.map Prod.fst) :
    (inits t i d vects)[j]? = some (e, own t i d entries) := by
  have gen : ∀ (vects : List (Name × List (Name × Arg))) (j : ℕ) (d0 : Init),
      (∀ k, k ∉ entries.map Prod.fst → d0 k = d k) → vects[j]? = some (e, entries) →
      (∀ v ∈ vects.take j, ∀ k ∈ v.2.map Prod.fst, k ∈ entries.map Prod.fst) →
      (inits t i d0 vects)[j]? = some (e, own t i d entries) := by
    intro vects
    induction vects with
    | nil => intro j d0 _ hj; simp at hj
    | cons v vs ih =>
      intro j d0 hd hj hk
      obtain ⟨e', es⟩ := v
      rw [inits]
      cases j with
      | zero =>
        simp only [List.getElem?_cons_zero, Option.some.injEq, Prod.mk.injEq] at hj ⊢
        obtain ⟨rfl, rfl⟩ := hj
        refine ⟨rfl, ?_⟩
        funext k
        by_cases h : k ∈ es.map Prod.fst
        · exact own_in t i d0 d es k h
        · have h1 := own_out t i d0 es k h
          have h2 := own_out t i d es k h
          rw [h2, ← hd k h]
          exact h1
      | succ j =>
        simp only [List.getElem?_cons_succ] at hj ⊢
        refine ih j _ ?_ hj fun v hv => hk v (by simp [hv])
        intro k hkn
        have h1 : k ∉ es.map Prod.fst := fun h => hkn (hk (e', es) (by simp) k h)
        have := own_out t i d0 es k h1
        rw [own] at this
        rw [this]
        exact hd k hkn
  exact gen vects j d (fun _ _ => rfl) hj hk

/-- C90: a key that the first vector names and the second leaves out keeps the value of the first vector: the vertical
component of the first vector is used for the second one, instead of the default 0. -/
theorem C90_leak_refuted (t : Table) (i : ℕ) (d : Init) (e1 e2 k col : Name) (v1 v2 : List (Name × Arg))
    (hn : (v1.map Prod.fst).Nodup) (h1 : (k, Arg.text col) ∈ v1) (hc : col ∈ t.vars) (h2 : k ∉ v2.map Prod.fst) :
    ∃ d2, (inits t i d [(e1, v1), (e2, v2)])[1]? = some (e2, d2) ∧ d2 k = some (.num (t.cell col i)) ∧
      own t i d v2 k = d k := by
  refine ⟨own t i (own t i d v1) v2, rfl, ?_, own_out t i d v2 k h2⟩
  rw [own_out t i _ v2 k h2, own_value t i d v1 k col hn h1, if_pos hc]

/-- Two vectors, of which only the first has a vertical component. -/
example : ∃ (v1 v2 : List (Name × Arg)), (v1.map Prod.fst).Nodup ∧
    ("vect_z".toList, Arg.text "vz".toList) ∈ v1 ∧ "vect_z".toList ∉ v2.map Prod.fst :=
  ⟨[("vect_n".toList, .text "vn".toList), ("vect_z".toList, .text "vz".toList)],
    [("vect_n".toList, .text "bn".toList), ("vect_e".toList, .text "be".toList)], by decide, by decide, by decide⟩

/-! ## C91: the names of the new columns -/

/-- The letters `ocb` do not occur in the name. -/
def Clean (e : Name) : Prop := ¬ ['o', 'c', 'b'] <:+: e

theorem replaceAux_skip (old new : Name) (e rest : Name) (n : ℕ)
    (h : ∀ a c s, e = a ++ c :: s → ¬ old <+: (c :: s) ++ rest) :
    replaceAux (e.length + n) old new (e ++ rest) = e ++ replaceAux n old new rest := by
  induction e with
  | nil => simp
  | cons c s ih =>
    have e1 : (c :: s).length + n = (s.length + n) + 1 := by simp; omega
    rw [e1, List.cons_append, replaceAux, if_neg, List.cons_append, ih]
    · intro a c' s' he
      exact h (c :: a) c' s' (by rw [he]; rfl)
    · rw [List.isPrefixOf_iff_prefix]
      exact h [] c s rfl

theorem clean_sep {e : Name} (he : Clean e) (rest : Name) (a : Name) (c : Char) (s : Name) (hs : e = a ++ c :: s) :
    ¬ "ocb".toList <+: (c :: s) ++ '_' :: rest := by
  rintro ⟨k, hk⟩
  have hk' : 'o' :: 'c' :: 'b' :: k = (c :: s) ++ '_' :: rest := hk
  match s, hs with
  | [], _ => simp at hk'
  | [_], _ => simp at hk'
  | x :: y :: s, hs =>
    simp only [List.cons_append, List.cons.injEq] at hk'
    obtain ⟨rfl, rfl, rfl, -⟩ := hk'
    exact he ⟨a, s, by rw [hs]; simp⟩

theorem clean_sep' {e : Name} (he : Clean e) (rest : Name) (a : Name) (c : Char) (s : Name) (hs : e = a ++ c :: s) :
    ¬ "_ocb_".toList <+: (c :: s) ++ '_' :: rest := by
  rintro ⟨k, hk⟩
  have hk' : '_' :: 'o' :: 'c' :: 'b' :: '_' :: k = (c :: s) ++ '_' :: rest := hk
  match s, hs with
  | [], _ => simp at hk'
  | [_], _ => simp at hk'
  | [_, _], _ => simp at hk'
  | x :: y :: z :: s, hs =>
    simp only [List.cons_append, List.cons.injEq] at hk'
    obtain ⟨rfl, rfl, rfl, rfl, -⟩ := hk'
    exact he ⟨a ++ ['_'], s, by rw [hs]; simp⟩

theorem replace_clean {e : Name} (he : Clean e) (rest : Name) :
    replace "_ocb_".toList "_".toList (e ++ '_' :: rest) = e ++ replace "_ocb_".toList "_".toList ('_' :: rest) := by
  rw [replace, List.length_append, replaceAux_skip _ _ _ _ _ (clean_sep' he rest), replace]

theorem replace_clean' {e : Name} (he : Clean e) (b rest : Name) :
    replace "ocb".toList b (e ++ '_' :: rest) = e ++ replace "ocb".toList b ('_' :: rest) := by
  rw [replace, List.length_append, replaceAux_skip _ _ _ _ _ (clean_sep he rest), replace]

/-- The columns that belong to one vector, as documented by the tests and examples. -/
def columns (k : Kind) (e : Name) : List Name :=
  match k with
  | .ocb => ["_ocb_n", "_ocb_e", "_ocb_z", "_ocb_mag", "_unscaled_r", "_scaled_r"].map fun s => e ++ s.toList
  | .eab => ["_eab_n", "_eab_e", "_eab_z", "_eab_mag", "_eab_unscaled_r", "_eab_scaled_r"].map fun s => e ++ s.toList
  | .dual => ["_dualb_n", "_dualb_e", "_dualb_z", "_dualb_mag", "_dualb_unscaled_r", "_dualb_scaled_r"].map
      fun s => e ++ s.toList

/-- C91: for a vector whose name does not contain `ocb`, the six columns made are the six columns written, with these
names.  What is missing: names that contain `ocb`, see `C91_missing_refuted` and `C91_clash_refuted`. -/
theorem C91_columns_partial (k : Kind) (e : Name) (he : Clean e) :
    attrs.map (keySet (bname k) e) = columns k e ∧ attrs.map (keyMade (bname k) e) = columns k e := by
  have h1 : ∀ rest : Name, keySet (bname k) e rest =
      e ++ replace "_ocb_".toList "_".toList ('_' :: (bname k ++ '_' :: rest)) := by
    intro rest
    rw [keySet, under, under, List.append_assoc, List.cons_append, replace_clean he]
  constructor
  · simp only [attrs, List.map_cons, List.map_nil, h1, columns]
    cases k <;> rfl
  · simp only [attrs, List.map_cons, List.map_nil, keyMade, h1, columns]
    cases k
    · rfl
    · rw [if_pos (by decide)]
      have h2 : ∀ s r : Name, replace "_ocb_".toList "_".toList ('_' :: (bname .eab ++ '_' :: s)) = '_' :: r →
          replace "ocb".toList (bname .eab) (e ++ replace "_ocb_".toList "_".toList ('_' :: (bname .eab ++ '_' :: s))) =
            e ++ replace "ocb".toList (bname .eab) ('_' :: r) := by
        intro s r h
        rw [h, replace_clean' he]
      rw [h2 "ocb_n".toList _ rfl, h2 "ocb_e".toList _ rfl, h2 "ocb_z".toList _ rfl, h2 "ocb_mag".toList _ rfl,
        h2 "unscaled_r".toList _ rfl, h2 "scaled_r".toList _ rfl]
      rfl
    · rw [if_pos (by decide)]
      have h2 : ∀ s r : Name, replace "_ocb_".toList "_".toList ('_' :: (bname .dual ++ '_' :: s)) = '_' :: r →
          replace "ocb".toList (bname .dual) (e ++ replace "_ocb_".toList "_".toList ('_' :: (bname .dual ++ '_' :: s))) =
            e ++ replace "ocb".toList (bname .dual) ('_' :: r) := by
        intro s r h
        rw [h, replace_clean' he]
      rw [h2 "ocb_n".toList _ rfl, h2 "ocb_e".toList _ rfl, h2 "ocb_z".toList _ rfl, h2 "ocb_mag".toList _ rfl,
        h2 "unscaled_r".toList _ rfl, h2 "scaled_r".toList _ rfl]
      rfl

/-- C91: a vector whose name contains `ocb`, with an equatorward boundary: the column that is written was never made, so
the call ends with a KeyError. -/
theorem C91_missing_refuted :
    ∃ e : Name, ∀ a ∈ attrs, keySet (bname .eab) e a ∉ attrs.map (keyMade (bname .eab) e) ∧
      put (blank (attrs.map (keyMade (bname .eab) e))) (keySet (bname .eab) e a) 0 (.fin 1) = .error .keyError := by
  refine ⟨"ocbvel".toList, ?_⟩
  have h : ∀ a ∈ attrs, keySet (bname .eab) "ocbvel".toList a ∉ attrs.map (keyMade (bname .eab) "ocbvel".toList) := by
    decide
  intro a ha
  refine ⟨h a ha, ?_⟩
  rw [put, blank, if_neg (h a ha)]

/-- C91: two vectors with different names share all their columns. -/
theorem C91_clash_refuted :
    ∃ e e' : Name, e ≠ e' ∧ ∀ k : Kind, attrs.map (keySet (bname k) e) = attrs.map (keySet (bname k) e') := by
  refine ⟨"a_ocb_b".toList, "a_b".toList, by decide, ?_⟩
  intro k
  cases k <;> decide

/-- A name to which `C91_columns_partial` applies. -/
example : Clean "ion_drift".toList ∧ columns .ocb "ion_drift".toList =
    ["ion_drift_ocb_n".toList, "ion_drift_ocb_e".toList, "ion_drift_ocb_z".toList, "ion_drift_ocb_mag".toList,
      "ion_drift_unscaled_r".toList, "ion_drift_scaled_r".toList] := by
  refine ⟨?_, rfl⟩
  unfold Clean
  decide

end Ocb.Pysat
