import Verif.Props.PysatData
import Verif.Props.Cycle
import Mathlib.Data.List.Nodup
import Mathlib.Tactic.Tauto

/-! # C94, C98: the columns that `add_ocb_to_data` adds to a pandas table -/

set_option autoImplicit false

namespace Ocb.Pysat

open Ocb.Files Ocb.Cycle

/-! ## Specification -/

/-- The row's time is within the tolerance of the record's time. -/
def RowClose (c : Cycler) (t : Table) (tol : ℤ) (i : ℕ) (r : ℤ) : Prop := ∃ tr, At c.times r tr ∧ |t.time i - tr| ≤ tol

/-- Record `r` is at least as near in time to the row as record `k`. -/
def RowNearer (c : Cycler) (t : Table) (i : ℕ) (r k : ℤ) : Prop :=
  ∀ tr tk, At c.times r tr → At c.times k tk → |t.time i - tr| ≤ |t.time i - tk|

/-- The cell of a new column. -/
def Cell (o : Out) (k : Name) (i : ℕ) (v : V) : Prop := ∃ c, o k = some c ∧ c i = v

/-- Every new cell of the row is NaN. -/
def Blank (o : Out) (i : ℕ) : Prop := ∀ k c, o k = some c → c i = .nan

/-- The new cells of row `i` hold what the record `r` gives: the boundary coordinates of its location, the attributes of
its vectors and the scaled values of its variables. -/
def Filled (L : Lib) (t : Table) (E : Env) (o : Out) (i : ℕ) (r : ℤ) : Prop :=
  ∃ h n, E.height.get i = .ok h ∧ L.norm r (t.cell E.names.mlat i) (t.cell E.names.mlt i) h = .ok n ∧
    Cell o (under E.names.mlat E.b) i n.1 ∧ Cell o (under E.names.mlt E.b) i n.2.1 ∧
    Cell o (under "r_corr".toList E.b) i n.2.2 ∧
    (∀ v ∈ inits t i (default n.1 n.2.1 n.2.2 h E.loc E.vec) E.p.vects, ∃ res,
      L.vect r i (t.cell E.names.mlat i) (t.cell E.names.mlt i) v.2 = .ok res ∧
      ∀ a ∈ attrs, Cell o (keySet E.b v.1 a) i (res a)) ∧
    (∀ e ∈ E.p.evars, ∃ v, L.scale .evar (t.cell e i) (L.radius r n.2.2) = .ok v ∧ Cell o (under e E.b) i v) ∧
    (∀ e ∈ E.p.curls, ∃ v, L.scale .curl (t.cell e i) (L.radius r n.2.2) = .ok v ∧ Cell o (under e E.b) i v)

/-- The names of the columns that are written. -/
def written (n : Names) (p : Plan) (b : Name) : List Name :=
  [under n.mlat b, under n.mlt b, under "r_corr".toList b] ++
    ((p.vects.map Prod.fst).flatMap fun e => attrs.map (keySet b e)) ++
    p.evars.map (fun e => under e b) ++ p.curls.map (fun e => under e b)

/-! ## Lemmas -/

theorem put_spec {o o' : Out} {k : Name} {i : ℕ} {v : V} (h : put o k i v = .ok o') :
    Cell o' k i v ∧ (∀ k' c, o k' = some c → ∃ c', o' k' = some c' ∧ (∀ j, j ≠ i → c' j = c j) ∧
      (k' ≠ k → c' i = c i)) ∧ ∀ k', (o' k').isSome = (o k').isSome := by
  rw [put] at h
  split at h
  · simp at h
  · rename_i c hc
    simp only [Except.ok.injEq] at h
    subst h
    refine ⟨⟨fun j => if j = i then v else c j, by simp, by simp⟩, ?_, ?_⟩
    · intro k' c' hc'
      by_cases hk : k' = k
      · subst hk
        rw [hc, Option.some.injEq] at hc'
        subst hc'
        exact ⟨fun j => if j = i then v else c j, by simp, fun j hj => by simp [hj], fun h => absurd rfl h⟩
      · exact ⟨c', by simp [hk, hc'], fun _ _ => rfl, fun _ => rfl⟩
    · intro k'
      by_cases hk : k' = k
      · subst hk; simp [hc]
      · simp [hk]

theorem putAll_spec {i : ℕ} {ws : List (Name × V)} {o o' : Out} (h : putAll i ws o = .ok o') :
    ((ws.map Prod.fst).Nodup → ∀ k v, (k, v) ∈ ws → Cell o' k i v) ∧
      (∀ k c, o k = some c → ∃ c', o' k = some c' ∧ (∀ j, j ≠ i → c' j = c j) ∧
        (k ∉ ws.map Prod.fst → c' i = c i)) ∧ ∀ k, (o' k).isSome = (o k).isSome := by
  induction ws generalizing o with
  | nil =>
    simp only [putAll, Except.ok.injEq] at h
    subst h
    exact ⟨by simp, fun k c hc => ⟨c, hc, fun _ _ => rfl, fun _ => rfl⟩, fun _ => rfl⟩
  | cons w ws ih =>
    obtain ⟨k0, v0⟩ := w
    simp only [putAll, bind, Except.bind] at h
    split at h
    · simp at h
    · rename_i o1 h1
      obtain ⟨a1, a2, a3⟩ := put_spec h1
      obtain ⟨b1, b2, b3⟩ := ih h
      refine ⟨?_, ?_, fun k => (b3 k).trans (a3 k)⟩
      · intro hn k v hkv
        simp only [List.map_cons, List.nodup_cons] at hn
        rcases List.mem_cons.1 hkv with e | hkv
        · simp only [Prod.mk.injEq] at e
          obtain ⟨rfl, rfl⟩ := e
          obtain ⟨c, hc, hv⟩ := a1
          obtain ⟨c', hc', -, hs⟩ := b2 _ c hc
          exact ⟨c', hc', (hs hn.1).trans hv⟩
        · exact b1 hn.2 k v hkv
      · intro k c hc
        obtain ⟨c1, hc1, p1, p2⟩ := a2 k c hc
        obtain ⟨c2, hc2, q1, q2⟩ := b2 k c1 hc1
        refine ⟨c2, hc2, fun j hj => (q1 j hj).trans (p1 j hj), fun hk => ?_⟩
        simp only [List.map_cons, List.mem_cons, not_or] at hk
        exact (q2 hk.2).trans (p2 hk.1)

theorem putAll_append (i : ℕ) (a b : List (Name × V)) (o o1 o2 : Out) (h1 : putAll i a o = .ok o1)
    (h2 : putAll i b o1 = .ok o2) : putAll i (a ++ b) o = .ok o2 := by
  induction a generalizing o with
  | nil => simp only [putAll, Except.ok.injEq] at h1; subst h1; simpa using h2
  | cons w a ih =>
    simp only [putAll, bind, Except.bind, List.cons_append] at h1 ⊢
    split at h1
    · simp at h1
    · rename_i o' h'
      exact ih o' h1

theorem putVects_writes {L : Lib} {b : Name} {r : ℤ} {i : ℕ} {lat lt : V} {vs : List (Name × Init)} {o o' : Out}
    (h : putVects L b r i lat lt vs o = .ok o') :
    ∃ ws, putAll i ws o = .ok o' ∧ ws.map Prod.fst = (vs.map Prod.fst).flatMap (fun e => attrs.map (keySet b e)) ∧
      ∀ v ∈ vs, ∃ res, L.vect r i lat lt v.2 = .ok res ∧ ∀ a ∈ attrs, (keySet b v.1 a, res a) ∈ ws := by
  induction vs generalizing o with
  | nil =>
    simp only [putVects, Except.ok.injEq] at h
    subst h
    exact ⟨[], rfl, rfl, by simp⟩
  | cons v vs ih =>
    obtain ⟨e, d⟩ := v
    simp only [putVects, bind, Except.bind] at h
    split at h
    · simp at h
    · rename_i res hres
      split at h
      · simp at h
      · rename_i o1 h1
        obtain ⟨ws, p1, p2, p3⟩ := ih h
        refine ⟨_, putAll_append i _ _ _ _ _ h1 p1, ?_, ?_⟩
        · rw [List.map_append, p2, List.map_map, List.map_cons, List.flatMap_cons]
          rfl
        · intro v hv
          rcases List.mem_cons.1 hv with rfl | hv
          · exact ⟨res, hres, fun a ha => List.mem_append_left _ (List.mem_map.2 ⟨a, ha, rfl⟩)⟩
          · obtain ⟨res', q1, q2⟩ := p3 v hv
            exact ⟨res', q1, fun a ha => List.mem_append_right _ (q2 a ha)⟩

theorem putScaled_writes {L : Lib} {t : Table} {b : Name} {f : Fn} {i : ℕ} {rad : V} {es : List Name} {o o' : Out}
    (h : putScaled L t b f i rad es o = .ok o') :
    ∃ ws, putAll i ws o = .ok o' ∧ ws.map Prod.fst = es.map (fun e => under e b) ∧
      ∀ e ∈ es, ∃ v, L.scale f (t.cell e i) rad = .ok v ∧ (under e b, v) ∈ ws := by
  induction es generalizing o with
  | nil =>
    simp only [putScaled, Except.ok.injEq] at h
    subst h
    exact ⟨[], rfl, rfl, by simp⟩
  | cons e es ih =>
    rw [putScaled] at h
    split at h
    · simp only [bind, Except.bind] at h
      split at h
      · simp at h
      · rename_i v hv
        split at h
        · simp at h
        · rename_i o1 h1
          obtain ⟨ws, p1, p2, p3⟩ := ih h
          refine ⟨(under e b, v) :: ws, ?_, by simp [p2], ?_⟩
          · simp only [putAll, bind, Except.bind, h1]
            exact p1
          · intro e' he'
            rcases List.mem_cons.1 he' with rfl | he'
            · exact ⟨v, hv, List.mem_cons_self⟩
            · obtain ⟨v', q1, q2⟩ := p3 e' he'
              exact ⟨v', q1, List.mem_cons_of_mem _ q2⟩
    · simp at h

theorem inits_names (t : Table) (i : ℕ) (d : Init) (vs : List (Name × List (Name × Arg))) :
    (inits t i d vs).map Prod.fst = vs.map Prod.fst := by
  induction vs generalizing d with
  | nil => rfl
  | cons v vs ih => simp [inits, ih]

theorem get_cell {o : Out} {k : Name} {i : ℕ} {v w : V} (h : Cell o k i v) (hg : get o k i = .ok w) : w = v := by
  obtain ⟨c, hc, hv⟩ := h
  rw [get, hc] at hg
  simp only [Except.ok.injEq] at hg
  rw [← hg, hv]

/-- What one row writes. -/
theorem doRow_spec {L : Lib} {t : Table} {E : Env} {o o' : Out} {i : ℕ} {r : ℤ} (h : doRow L t E o i r = .ok o')
    (hn : (written E.names E.p E.b).Nodup) :
    Filled L t E o' i r ∧
      (∀ k c, o k = some c → ∃ c', o' k = some c' ∧ (∀ j, j ≠ i → c' j = c j)) ∧
      ∀ k, (o' k).isSome = (o k).isSome := by
  simp only [doRow, bind, Except.bind] at h
  split at h
  · simp at h
  rename_i hgt hh
  split at h
  · simp at h
  rename_i n hnrm
  split at h
  · simp at h
  rename_i o1 h1
  split at h
  · simp at h
  rename_i x1 g1
  split at h
  · simp at h
  rename_i x2 g2
  split at h
  · simp at h
  rename_i x3 g3
  split at h
  · simp at h
  rename_i o2 h2
  split at h
  · simp at h
  rename_i x4 g4
  split at h
  · simp at h
  rename_i o3 h3
  -- the three coordinates
  have hn0 : ([under E.names.mlat E.b, under E.names.mlt E.b, under "r_corr".toList E.b] : List Name).Nodup := by
    rw [written, List.append_assoc, List.append_assoc] at hn
    exact (List.nodup_append.1 hn).1
  have s1 := (putAll_spec h1).1 hn0
  have e1 : x1 = n.1 := get_cell (s1 _ _ (by simp)) g1
  have e2 : x2 = n.2.1 := get_cell (s1 _ _ (by simp)) g2
  have e3 : x3 = n.2.2 := get_cell (s1 _ _ (by simp)) g3
  subst e1 e2 e3
  obtain ⟨wv, v1, v2, v3⟩ := putVects_writes h2
  rw [inits_names] at v2
  have e4 : x4 = n.2.2 := by
    obtain ⟨c, hc, hv⟩ := s1 (under "r_corr".toList E.b) n.2.2 (by simp)
    obtain ⟨c', hc', -, hs⟩ := (putAll_spec v1).2.1 _ c hc
    refine get_cell ⟨c', hc', (hs ?_).trans hv⟩ g4
    rw [v2]
    rw [written, List.append_assoc, List.append_assoc] at hn
    intro hm
    exact (List.nodup_append.1 hn).2.2 _ (by simp) _ (List.mem_append_left _ hm) rfl
  subst e4
  obtain ⟨we, w1, w2, w3⟩ := putScaled_writes h3
  obtain ⟨wc, c1, c2, c3⟩ := putScaled_writes h
  have hall := putAll_append i _ _ _ _ _ (putAll_append i _ _ _ _ _ (putAll_append i _ _ _ _ _ h1 v1) w1) c1
  obtain ⟨a1, a2, a3⟩ := putAll_spec hall
  have hkeys : ((([(under E.names.mlat E.b, n.1), (under E.names.mlt E.b, n.2.1),
      (under "r_corr".toList E.b, n.2.2)] ++ wv) ++ we) ++ wc).map Prod.fst = written E.names E.p E.b := by
    rw [List.map_append, List.map_append, List.map_append, v2, w2, c2]
    rfl
  have a1 := a1 (hkeys ▸ hn)
  refine ⟨⟨hgt, n, hh, hnrm, a1 _ _ (by simp), a1 _ _ (by simp), a1 _ _ (by simp), ?_, ?_, ?_⟩, ?_, a3⟩
  · intro v hv
    obtain ⟨res, q1, q2⟩ := v3 v hv
    exact ⟨res, q1, fun a ha => a1 _ _ (by simp only [List.mem_append]; exact .inl (.inl (.inr (q2 a ha))))⟩
  · intro e he
    obtain ⟨v, q1, q2⟩ := w3 e he
    exact ⟨v, q1, a1 _ _ (by simp only [List.mem_append]; exact .inl (.inr q2))⟩
  · intro e he
    obtain ⟨v, q1, q2⟩ := c3 e he
    exact ⟨v, q1, a1 _ _ (by simp only [List.mem_append]; exact .inr q2)⟩
  · intro k c hc
    obtain ⟨c', q1, q2, -⟩ := a2 k c hc
    exact ⟨c', q1, q2⟩

theorem cell_frame {o o' : Out} {i : ℕ} (h : ∀ k c, o k = some c → ∃ c', o' k = some c' ∧ c' i = c i) {k : Name} {v : V}
    (hc : Cell o k i v) : Cell o' k i v := by
  obtain ⟨c, h1, h2⟩ := hc
  obtain ⟨c', h3, h4⟩ := h k c h1
  exact ⟨c', h3, h4.trans h2⟩

theorem filled_frame {L : Lib} {t : Table} {E : Env} {o o' : Out} {i : ℕ} {r : ℤ}
    (h : ∀ k c, o k = some c → ∃ c', o' k = some c' ∧ c' i = c i) (hf : Filled L t E o i r) : Filled L t E o' i r := by
  obtain ⟨hgt, n, f1, f2, f3, f4, f5, f6, f7, f8⟩ := hf
  refine ⟨hgt, n, f1, f2, cell_frame h f3, cell_frame h f4, cell_frame h f5, ?_, ?_, ?_⟩
  · intro v hv
    obtain ⟨res, g1, g2⟩ := f6 v hv
    exact ⟨res, g1, fun a ha => cell_frame h (g2 a ha)⟩
  · intro e he
    obtain ⟨v, g1, g2⟩ := f7 e he
    exact ⟨v, g1, cell_frame h g2⟩
  · intro e he
    obtain ⟨v, g1, g2⟩ := f8 e he
    exact ⟨v, g1, cell_frame h g2⟩

theorem doRows_spec {L : Lib} {t : Table} {E : Env} (hn : (written E.names E.p E.b).Nodup) {l : List (ℕ × ℤ)}
    {o o' : Out} (h : doRows L t E l o = .ok o') (hl : (l.map Prod.fst).Nodup) :
    (∀ q ∈ l, Filled L t E o' q.1 q.2) ∧
      (∀ k c, o k = some c → ∃ c', o' k = some c' ∧ ∀ j, j ∉ l.map Prod.fst → c' j = c j) ∧
      ∀ k, (o' k).isSome = (o k).isSome := by
  induction l generalizing o with
  | nil =>
    simp only [doRows, Except.ok.injEq] at h
    subst h
    exact ⟨by simp, fun k c hc => ⟨c, hc, fun _ _ => rfl⟩, fun _ => rfl⟩
  | cons q l ih =>
    obtain ⟨i, r⟩ := q
    simp only [doRows, bind, Except.bind] at h
    split at h
    · simp at h
    · rename_i o1 h1
      simp only [List.map_cons, List.nodup_cons] at hl
      obtain ⟨a1, a2, a3⟩ := doRow_spec h1 hn
      obtain ⟨b1, b2, b3⟩ := ih h hl.2
      refine ⟨?_, ?_, fun k => (b3 k).trans (a3 k)⟩
      · intro q hq
        rcases List.mem_cons.1 hq with rfl | hq
        · refine filled_frame (fun k c hc => ?_) a1
          obtain ⟨c', g1, g2⟩ := b2 k c hc
          exact ⟨c', g1, g2 _ hl.1⟩
        · exact b1 q hq
      · intro k c hc
        obtain ⟨c1, g1, g2⟩ := a2 k c hc
        obtain ⟨c2, g3, g4⟩ := b2 k c1 g1
        refine ⟨c2, g3, fun j hj => ?_⟩
        simp only [List.map_cons, List.mem_cons, not_or] at hj
        exact (g4 j hj.2).trans (g2 j hj.1)

theorem used_sorted (t : Table) (mlat : Name) (need : List Name) (h : ℤ) : (usedRows t mlat need h).Pairwise (· < ·) :=
  List.Pairwise.filter _ List.pairwise_lt_range

theorem used_get {t : Table} {mlat : Name} {need : List Name} {h : ℤ} {j : ℕ} {d : ℤ}
    (hd : ((usedRows t mlat need h).map t.time)[j]? = some d) :
    ∃ i, (usedRows t mlat need h)[j]? = some i ∧ (usedRows t mlat need h).getD j 0 = i ∧ t.time i = d := by
  rw [List.getElem?_map, Option.map_eq_some_iff] at hd
  obtain ⟨i, h1, h2⟩ := hd
  exact ⟨i, h1, by rw [List.getD_eq_getElem?_getD, h1]; rfl, h2⟩

theorem used_times {t : Table} (hT : ∀ a b, a ≤ b → b < t.rows → t.time a ≤ t.time b) (mlat : Name) (need : List Name)
    (h : ℤ) : ((usedRows t mlat need h).map t.time).Pairwise (· ≤ ·) := by
  rw [List.pairwise_map]
  refine (used_sorted t mlat need h).imp_of_mem fun {a b} _ hb hab => hT a b (by omega) ?_
  have := (List.mem_filter.1 hb).1
  exact List.mem_range.1 this

theorem pairs_nodup {used : List ℕ} (hu : used.Pairwise (· < ·)) {l : List (ℕ × ℤ)}
    (hl : l.Pairwise fun p q => p.1 < q.1 ∧ p.2 ≤ q.2) (hb : ∀ q ∈ l, q.1 < used.length) :
    ((l.map fun q => (used.getD q.1 0, q.2)).map Prod.fst).Nodup := by
  rw [List.map_map, List.Nodup, List.pairwise_map]
  refine hl.imp_of_mem fun {a b} ha hb' hab => ?_
  have h1 := hb a ha
  have h2 := hb b hb'
  simp only [Function.comp, List.getD_eq_getElem?_getD, List.getElem?_eq_getElem h1, List.getElem?_eq_getElem h2,
    Option.getD_some]
  exact (List.pairwise_iff_getElem.1 hu _ _ h1 h2 hab.1).ne

variable {c : Cycler} {good : ℤ → Prop}

theorem put_ok {o : Out} {k : Name} (h : (o k).isSome = true) (i : ℕ) (v : V) : ∃ o', put o k i v = .ok o' := by
  obtain ⟨col, hc⟩ := Option.isSome_iff_exists.1 h
  exact ⟨_, by rw [put, hc]⟩

theorem putAll_ok {i : ℕ} {ws : List (Name × V)} {o : Out} (h : ∀ w ∈ ws, (o w.1).isSome = true) :
    ∃ o', putAll i ws o = .ok o' := by
  induction ws generalizing o with
  | nil => exact ⟨o, rfl⟩
  | cons w ws ih =>
    obtain ⟨o1, h1⟩ := put_ok (h w List.mem_cons_self) i w.2
    obtain ⟨o2, h2⟩ := ih (o := o1) fun w' hw' => by rw [(put_spec h1).2.2]; exact h w' (List.mem_cons_of_mem _ hw')
    exact ⟨o2, by simp only [putAll, bind, Except.bind, h1]; exact h2⟩

theorem putVects_ok {L : Lib} (hL : ∀ r i x y d, ∃ res, L.vect r i x y d = .ok res) {b : Name} {r : ℤ} {i : ℕ}
    {lat lt : V} {vs : List (Name × Init)} {o : Out}
    (h : ∀ v ∈ vs, ∀ a ∈ attrs, (o (keySet b v.1 a)).isSome = true) :
    ∃ o', putVects L b r i lat lt vs o = .ok o' := by
  induction vs generalizing o with
  | nil => exact ⟨o, rfl⟩
  | cons v vs ih =>
    obtain ⟨res, hr⟩ := hL r i lat lt v.2
    obtain ⟨o1, h1⟩ := putAll_ok (i := i) (ws := attrs.map fun a => (keySet b v.1 a, res a)) (o := o) (by
      intro w hw
      obtain ⟨a, ha, rfl⟩ := List.mem_map.1 hw
      exact h v List.mem_cons_self a ha)
    obtain ⟨o2, h2⟩ := ih (o := o1) fun w hw a ha => by
      rw [(putAll_spec h1).2.2]; exact h w (List.mem_cons_of_mem _ hw) a ha
    refine ⟨o2, ?_⟩
    simp only [putVects, bind, Except.bind, hr, h1]
    exact h2

theorem putScaled_ok {L : Lib} (hL : ∀ f x y, ∃ v, L.scale f x y = .ok v) {t : Table} {b : Name} {f : Fn} {i : ℕ}
    {rad : V} {es : List Name} {o : Out} (hv : ∀ e ∈ es, e ∈ t.vars)
    (h : ∀ e ∈ es, (o (under e b)).isSome = true) : ∃ o', putScaled L t b f i rad es o = .ok o' := by
  induction es generalizing o with
  | nil => exact ⟨o, rfl⟩
  | cons e es ih =>
    obtain ⟨v, hr⟩ := hL f (t.cell e i) rad
    obtain ⟨o1, h1⟩ := put_ok (h e List.mem_cons_self) i v
    obtain ⟨o2, h2⟩ := ih (o := o1) (fun w hw => hv w (List.mem_cons_of_mem _ hw)) fun w hw => by
      rw [(put_spec h1).2.2]; exact h w (List.mem_cons_of_mem _ hw)
    refine ⟨o2, ?_⟩
    rw [putScaled, if_pos (hv e List.mem_cons_self)]
    simp only [bind, Except.bind, hr, h1]
    exact h2

/-- The functions called by the loop return values. -/
def Total (L : Lib) : Prop :=
  (∀ r x y z, ∃ v, L.norm r x y z = .ok v) ∧ (∀ r i x y d, ∃ res, L.vect r i x y d = .ok res) ∧
    ∀ f x y, ∃ v, L.scale f x y = .ok v

theorem get_ok {o : Out} {k : Name} (h : (o k).isSome = true) (i : ℕ) : ∃ v, get o k i = .ok v := by
  obtain ⟨col, hc⟩ := Option.isSome_iff_exists.1 h
  exact ⟨_, by rw [get, hc]⟩

theorem doRow_ok {L : Lib} (hL : Total L) {t : Table} {E : Env} (hh : ∃ col, E.height = .column col)
    (hv : ∀ e ∈ E.p.evars ++ E.p.curls, e ∈ t.vars) {o : Out}
    (h : ∀ k ∈ written E.names E.p E.b, (o k).isSome = true) (i : ℕ) (r : ℤ) : ∃ o', doRow L t E o i r = .ok o' := by
  obtain ⟨col, hcol⟩ := hh
  obtain ⟨l1, l2, l3⟩ := hL
  obtain ⟨n, hnrm⟩ := l1 r (t.cell E.names.mlat i) (t.cell E.names.mlt i) (col i)
  have hw : ∀ k, (k = under E.names.mlat E.b ∨ k = under E.names.mlt E.b ∨ k = under "r_corr".toList E.b) →
      k ∈ written E.names E.p E.b := by
    intro k hk
    simp only [written, List.mem_append]
    exact .inl (.inl (.inl (by simpa using hk)))
  obtain ⟨o1, h1⟩ := putAll_ok (i := i) (ws := [(under E.names.mlat E.b, n.1), (under E.names.mlt E.b, n.2.1),
    (under "r_corr".toList E.b, n.2.2)]) (o := o) (by
      intro w hw'
      simp only [List.mem_cons, List.not_mem_nil, or_false] at hw'
      rcases hw' with rfl | rfl | rfl
      · exact h _ (hw _ (.inl rfl))
      · exact h _ (hw _ (.inr (.inl rfl)))
      · exact h _ (hw _ (.inr (.inr rfl))))
  have d1 : ∀ k ∈ written E.names E.p E.b, (o1 k).isSome = true := fun k hk => by
    rw [(putAll_spec h1).2.2]; exact h k hk
  obtain ⟨x1, g1⟩ := get_ok (d1 _ (hw _ (.inl rfl))) i
  obtain ⟨x2, g2⟩ := get_ok (d1 _ (hw _ (.inr (.inl rfl)))) i
  obtain ⟨x3, g3⟩ := get_ok (d1 _ (hw _ (.inr (.inr rfl)))) i
  obtain ⟨o2, h2⟩ := putVects_ok l2 (b := E.b) (r := r) (i := i) (lat := t.cell E.names.mlat i)
    (lt := t.cell E.names.mlt i) (vs := inits t i (default x1 x2 x3 (col i) E.loc E.vec) E.p.vects) (o := o1) (by
      intro v hv a ha
      refine d1 _ ?_
      have hm : v.1 ∈ E.p.vects.map Prod.fst := by
        rw [← inits_names t i (default x1 x2 x3 (col i) E.loc E.vec)]
        exact List.mem_map.2 ⟨v, hv, rfl⟩
      simp only [written, List.mem_append, List.mem_flatMap]
      exact .inl (.inl (.inr ⟨v.1, hm, List.mem_map.2 ⟨a, ha, rfl⟩⟩)))
  have d2 : ∀ k ∈ written E.names E.p E.b, (o2 k).isSome = true := fun k hk => by
    obtain ⟨ws, q, -, -⟩ := putVects_writes h2
    rw [(putAll_spec q).2.2]; exact d1 k hk
  obtain ⟨x4, g4⟩ := get_ok (d2 _ (hw _ (.inr (.inr rfl)))) i
  obtain ⟨o3, h3⟩ := putScaled_ok l3 (t := t) (b := E.b) (f := .evar) (i := i) (rad := L.radius r x4) (es := E.p.evars)
    (o := o2) (fun e he => hv e (List.mem_append_left _ he)) (fun e he => d2 _ (by
      simp only [written, List.mem_append]
      exact .inl (.inr (List.mem_map.2 ⟨e, he, rfl⟩))))
  have d3 : ∀ k ∈ written E.names E.p E.b, (o3 k).isSome = true := fun k hk => by
    obtain ⟨ws, q, -, -⟩ := putScaled_writes h3
    rw [(putAll_spec q).2.2]; exact d2 k hk
  obtain ⟨o4, h4⟩ := putScaled_ok l3 (t := t) (b := E.b) (f := .curl) (i := i) (rad := L.radius r x4) (es := E.p.curls)
    (o := o3) (fun e he => hv e (List.mem_append_right _ he)) (fun e he => d3 _ (by
      simp only [written, List.mem_append]
      exact .inr (List.mem_map.2 ⟨e, he, rfl⟩)))
  refine ⟨o4, ?_⟩
  have hg : Height.get (.column col) i = .ok (col i) := rfl
  simp only [doRow, hcol, hg, bind, Except.bind, hnrm, h1, g1, g2, g3, h2, g4, h3]
  exact h4

theorem doRows_ok {L : Lib} (hL : Total L) {t : Table} {E : Env} (hh : ∃ col, E.height = .column col)
    (hv : ∀ e ∈ E.p.evars ++ E.p.curls, e ∈ t.vars) (hn : (written E.names E.p E.b).Nodup) (l : List (ℕ × ℤ)) {o : Out}
    (h : ∀ k ∈ written E.names E.p E.b, (o k).isSome = true) : ∃ o', doRows L t E l o = .ok o' := by
  induction l generalizing o with
  | nil => exact ⟨o, rfl⟩
  | cons q l ih =>
    obtain ⟨o1, h1⟩ := doRow_ok hL hh hv h q.1 q.2
    obtain ⟨o2, h2⟩ := ih (o := o1) fun k hk => by rw [(doRow_spec h1 hn).2.2]; exact h k hk
    exact ⟨o2, by simp only [doRows, bind, Except.bind, h1]; exact h2⟩

theorem foldl_addNew (l acc : List Name) (x : Name) : x ∈ l.foldl addNew acc ↔ x ∈ acc ∨ x ∈ l := by
  induction l generalizing acc with
  | nil => simp
  | cons a l ih =>
    rw [List.foldl_cons, ih, addNew]
    split_ifs with h
    · constructor
      · rintro (h' | h')
        · exact .inl h'
        · exact .inr (List.mem_cons_of_mem _ h')
      · rintro (h' | h')
        · exact .inl h'
        · rcases List.mem_cons.1 h' with rfl | h'
          · exact .inl h
          · exact .inr h'
    · simp only [List.mem_append, List.mem_cons, List.not_mem_nil, or_false]
      tauto

theorem strip_under (e b : Name) : (under e b).take ((under e b).length - (b.length + 1)) = e := by
  have : (under e b).length - (b.length + 1) = e.length := by simp [under]
  rw [this, under, List.take_left]

/-- Every column that is written was made, if the vectors have names without `ocb` and no vector is named like one of
the other quantities. -/
theorem written_made (k : Kind) (n : Names) (p : Plan) (hc : ∀ v ∈ p.vects, Clean v.1)
    (hs : ∀ e ∈ [n.mlat, n.mlt, "r_corr".toList] ++ p.evars ++ p.curls, e ∉ p.vects.map Prod.fst) (x : Name)
    (hx : x ∈ written n p (bname k)) : x ∈ outKeys (bname k) n p := by
  have hsc : ∀ e, e ∈ [n.mlat, n.mlt, "r_corr".toList] ++ p.evars ++ p.curls → under e (bname k) ∈ outKeys (bname k) n p := by
    intro e he
    rw [outKeys, List.mem_flatMap]
    refine ⟨under e (bname k), ?_, ?_⟩
    · simp only [ocbNames, List.mem_append, foldl_addNew]
      simp only [List.mem_append] at he
      rcases he with (he | he) | he
      · refine .inl (.inl (.inl ?_))
        simp only [List.mem_cons, List.not_mem_nil, or_false] at he ⊢
        rcases he with rfl | rfl | rfl
        · exact .inl rfl
        · exact .inr (.inl rfl)
        · exact .inr (.inr rfl)
      · exact .inl (.inr (List.mem_map.2 ⟨e, he, rfl⟩))
      · exact .inr (List.mem_map.2 ⟨e, he, rfl⟩)
    · simp only [strip_under]
      rw [if_neg (hs e he)]
      exact List.mem_singleton.2 rfl
  simp only [written, List.mem_append] at hx
  rcases hx with ((hx | hx) | hx) | hx
  · simp only [List.mem_cons, List.not_mem_nil, or_false] at hx
    rcases hx with rfl | rfl | rfl
    · exact hsc _ (by simp)
    · exact hsc _ (by simp)
    · exact hsc _ (List.mem_append_left _ (List.mem_append_left _ (.tail _ (.tail _ (.head _)))))
  · rw [List.mem_flatMap] at hx
    obtain ⟨e, he, hx⟩ := hx
    obtain ⟨v, hv, rfl⟩ := List.mem_map.1 he
    rw [outKeys, List.mem_flatMap]
    refine ⟨under v.1 (bname k), ?_, ?_⟩
    · simp only [ocbNames, List.mem_append, foldl_addNew]
      exact .inl (.inl (.inr (List.mem_map.2 ⟨v, hv, rfl⟩)))
    · simp only [strip_under]
      rw [if_pos he]
      obtain ⟨a1, a2⟩ := C91_columns_partial k v.1 (hc v hv)
      rw [a2, ← a1]
      exact hx
  · obtain ⟨e, he, rfl⟩ := List.mem_map.1 hx
    exact hsc e (List.mem_append_left _ (List.mem_append_right _ he))
  · obtain ⟨e, he, rfl⟩ := List.mem_map.1 hx
    exact hsc e (List.mem_append_right _ he)

/-! ## Theorems -/

/-- C94: when the call succeeds and the columns written have different names, each row of the table is in one of two
cases.  Either it is a row that passed the selection, there is a usable record within the tolerance, and its new cells
hold what this record gives; or all its new cells are NaN.  For rows and records in time order, the second case happens
only when no usable record is within the tolerance of a selected row, and the record taken is a nearest one. -/
theorem C94_rows (L : Lib) (hb : IsBoundary c good) (rec : ℤ) (h0 : -1 ≤ rec) (tol : ℤ) (htol : 0 ≤ tol) (t : Table)
    (n : Names) (height : Height) (loc vec : Name) (h : ℤ) (b : Name) (p : Plan) (o : Out)
    (hp : plan t.vars n = .ok p) (hn : (written n p b).Nodup)
    (ho : addOcb L c rec tol t n height loc vec h b = .ok (some o)) (i : ℕ) :
    (∃ r, i ∈ usedRows t n.mlat p.need h ∧ Cand good rec r ∧ RowClose c t tol i r ∧
        Filled L t ⟨n, p, b, height, loc, vec⟩ o i r ∧
        ((∀ a b, a ≤ b → b < t.rows → t.time a ≤ t.time b) → StrictOn c.times (Cand good rec) →
          ∀ k, Cand good rec k → RowNearer c t i r k)) ∨
      (Blank o i ∧
        ((∀ a b, a ≤ b → b < t.rows → t.time a ≤ t.time b) → NondecOn c.times (Cand good rec) →
          i ∈ usedRows t n.mlat p.need h → ∀ k, Cand good rec k → ¬ RowClose c t tol i k)) := by
  simp only [addOcb, hp, bind, Except.bind, pure, Except.pure] at ho
  split at ho
  · simp at ho
  split at ho
  · simp at ho
  rename_i l hl
  split at ho
  · simp at ho
  rename_i o' ho'
  simp only [Except.ok.injEq, Option.some.injEq] at ho
  subst ho
  set used := usedRows t n.mlat p.need h with hused
  obtain ⟨q1, q2⟩ := C18_drive_pairs hb _ tol htol rec h0 l hl
  have hlt : ∀ q ∈ l, q.1 < used.length := by
    intro q hq
    obtain ⟨⟨d, _, hd, -, -⟩, -⟩ := q2 q hq
    have := (List.getElem?_eq_some_iff.1 hd).1
    simpa using this
  obtain ⟨r1, r2, r3⟩ := doRows_spec hn ho' (pairs_nodup (used_sorted t n.mlat p.need h) q1 hlt)
  by_cases hi : ∃ q ∈ l, used.getD q.1 0 = i
  · obtain ⟨q, hq, rfl⟩ := hi
    refine .inl ⟨q.2, ?_, (q2 q hq).2, ?_, r1 (used.getD q.1 0, q.2) (List.mem_map.2 ⟨q, hq, rfl⟩), ?_⟩
    · rw [List.getD_eq_getElem?_getD, List.getElem?_eq_getElem (hlt q hq), Option.getD_some]
      exact List.getElem_mem _
    · obtain ⟨d, tr, hd, htr, hc⟩ := (q2 q hq).1
      obtain ⟨i, -, e, e'⟩ := used_get hd
      refine ⟨tr, htr, ?_⟩
      rw [e, e', abs_sub_comm]
      exact hc
    · intro hT hS k hk tr tk htr htk
      obtain ⟨d, _, hd, -, -⟩ := (q2 q hq).1
      obtain ⟨i, -, e, e'⟩ := used_get hd
      have := C18_drive_nearest hb _ tol htol rec h0 (used_times hT _ _ _) hS l hl q hq k hk d tr tk hd htr htk
      rw [e, e', abs_sub_comm, abs_sub_comm d]
      exact this
  · right
    constructor
    · intro k col hk
      have hs := r3 k
      rw [hk] at hs
      cases hbk : blank (outKeys b n p) k with
      | none => simp [hbk] at hs
      | some c0 =>
        obtain ⟨c', g1, g2⟩ := r2 k c0 hbk
        rw [hk, Option.some.injEq] at g1
        subst g1
        rw [g2 i]
        · rw [blank] at hbk
          split at hbk
          · simp only [Option.some.injEq] at hbk
            subst hbk
            rfl
          · simp at hbk
        · rw [List.map_map]
          simp only [List.mem_map, Function.comp, not_exists, not_and]
          exact fun q hq he => hi ⟨q, hq, he⟩
    · rintro hT hN hu k hk ⟨tk, h1, h2⟩
      obtain ⟨j, hj⟩ := List.mem_iff_getElem?.1 hu
      have hclose : Close c (used.map t.time) tol j k :=
        ⟨t.time i, tk, by rw [List.getElem?_map, hj]; rfl, h1, by rwa [abs_sub_comm]⟩
      obtain ⟨q, hq, rfl⟩ := (C18_drive_complete hb _ tol htol rec h0 (used_times hT _ _ _) hN l hl j).2 ⟨k, hk, hclose⟩
      refine hi ⟨q, hq, ?_⟩
      rw [List.getD_eq_getElem?_getD, hj]
      rfl

/-- C94: the new columns are the ones of the plan, whatever the rows are. -/
theorem C94_columns (L : Lib) (hb : IsBoundary c good) (rec : ℤ) (h0 : -1 ≤ rec) (tol : ℤ) (htol : 0 ≤ tol) (t : Table)
    (n : Names) (height : Height) (loc vec : Name) (h : ℤ) (b : Name) (p : Plan) (o : Out)
    (hp : plan t.vars n = .ok p) (hn : (written n p b).Nodup)
    (ho : addOcb L c rec tol t n height loc vec h b = .ok (some o)) (k : Name) :
    (∃ col, o k = some col) ↔ k ∈ outKeys b n p := by
  simp only [addOcb, hp, bind, Except.bind, pure, Except.pure] at ho
  split at ho
  · simp at ho
  split at ho
  · simp at ho
  rename_i l hl
  split at ho
  · simp at ho
  rename_i o' ho'
  simp only [Except.ok.injEq, Option.some.injEq] at ho
  subst ho
  obtain ⟨q1, q2⟩ := C18_drive_pairs hb _ tol htol rec h0 l hl
  have hlt : ∀ q ∈ l, q.1 < (usedRows t n.mlat p.need h).length := by
    intro q hq
    obtain ⟨⟨d, _, hd, -, -⟩, -⟩ := q2 q hq
    have := (List.getElem?_eq_some_iff.1 hd).1
    simpa using this
  have r3 := (doRows_spec hn ho' (pairs_nodup (used_sorted t n.mlat p.need h) q1 hlt)).2.2 k
  rw [← Option.isSome_iff_exists, r3, blank]
  split <;> simp_all

/-- C94: the call succeeds when: the functions it uses return values; there is a column of heights; the remaining names
are variables; no vector has `ocb` in its name or is named like another quantity; the columns have different names;
the rows and records are in time order and not entirely apart. -/
theorem C94_succeeds (L : Lib) (hL : Total L) (hb : IsBoundary c good) (rec : ℤ) (h0 : -1 ≤ rec) (tol : ℤ)
    (htol : 0 ≤ tol) (t : Table) (n : Names) (hgt : ℕ → V) (loc vec : Name) (h : ℤ) (k : Kind) (p : Plan)
    (hp : plan t.vars n = .ok p) (hn : (written n p (bname k)).Nodup) (hv : ∀ e ∈ p.evars ++ p.curls, e ∈ t.vars)
    (hc : ∀ v ∈ p.vects, Clean v.1)
    (hs : ∀ e ∈ [n.mlat, n.mlt, "r_corr".toList] ++ p.evars ++ p.curls, e ∉ p.vects.map Prod.fst)
    (hT : ∀ a b, a ≤ b → b < t.rows → t.time a ≤ t.time b) (hN : NondecOn c.times (Cand good rec))
    (hr : c.times ≠ []) (hno : ¬ NoOverlap c good rec ((usedRows t n.mlat p.need h).map t.time) tol) :
    ∃ o, addOcb L c rec tol t n (.column hgt) loc vec h (bname k) = .ok (some o) := by
  cases hd : drive c ((usedRows t n.mlat p.need h).map t.time) tol 0 rec with
  | error e =>
    exact absurd ((C60_drive_error_iff_partial hb _ tol htol rec h0 (used_times hT _ _ _) hN e).1 hd).2 hno
  | ok l =>
    have hrec : ¬ c.records = 0 := by
      rw [Cycler.records]
      have := List.length_pos_iff.2 hr
      omega
    obtain ⟨o, ho⟩ := doRows_ok hL (E := ⟨n, p, bname k, .column hgt, loc, vec⟩) ⟨hgt, rfl⟩ hv hn
      (l.map fun q => ((usedRows t n.mlat p.need h).getD q.1 0, q.2)) (o := blank (outKeys (bname k) n p)) (by
        intro x hx
        rw [blank, if_pos (written_made k n p hc hs x hx)]
        rfl)
    exact ⟨o, by simp only [addOcb, hp, bind, Except.bind, pure, Except.pure, if_neg hrec, hd, ho]⟩

/-- C98: with the default height, a single number, the call fails with an IndexError whenever there is something to
compute: rows and records in time order, and a selected row with a usable record within the tolerance. -/
theorem C98_default_height_refuted (L : Lib) (hb : IsBoundary c good) (rec : ℤ) (h0 : -1 ≤ rec) (tol : ℤ)
    (htol : 0 ≤ tol) (t : Table) (n : Names) (hgt : V) (loc vec : Name) (h : ℤ) (b : Name) (p : Plan)
    (hp : plan t.vars n = .ok p) (hT : ∀ a b, a ≤ b → b < t.rows → t.time a ≤ t.time b)
    (hN : NondecOn c.times (Cand good rec)) (i : ℕ) (hi : i ∈ usedRows t n.mlat p.need h) (k : ℤ)
    (hk : Cand good rec k) (hc : RowClose c t tol i k) :
    addOcb L c rec tol t n (.scalar hgt) loc vec h b = .error .indexError := by
  obtain ⟨tk, h1, h2⟩ := hc
  have hrec : ¬ c.records = 0 := by
    rw [Cycler.records]
    obtain ⟨-, hh⟩ := h1
    have := (List.getElem?_eq_some_iff.1 hh).1
    omega
  have hS := used_times hT n.mlat p.need h
  obtain ⟨j, hj⟩ := List.mem_iff_getElem?.1 hi
  have hmem : t.time i ∈ (usedRows t n.mlat p.need h).map t.time := List.mem_map.2 ⟨i, hi, rfl⟩
  have hget : ((usedRows t n.mlat p.need h).map t.time)[j]? = some (t.time i) := by rw [List.getElem?_map, hj]; rfl
  rw [abs_le] at h2
  cases hd : drive c ((usedRows t n.mlat p.need h).map t.time) tol 0 rec with
  | error e =>
    exfalso
    obtain ⟨-, ⟨d, hd0⟩, hno⟩ := (C60_drive_error_iff_partial hb _ tol htol rec h0 hS hN e).1 hd
    rcases hno with ⟨rfl, f, tf, hf, hgf, hfirst, hall⟩ | ⟨-, hall⟩
    · have hgk : good k := by
        rcases hk.2 with e | e
        · have := h1.1; omega
        · exact e
      have hfk : f ≤ k := by
        by_contra hlt
        exact hfirst k h1.1 (by omega) hgk
      have := hN f k tf tk hfk ⟨by have := hf.1; omega, .inr hgf⟩ hk hf h1
      have := hall _ hmem
      omega
    · have ha := hall k tk d h1 hk hd0
      have hle : d ≤ t.time i := by
        obtain ⟨g1, g2⟩ := List.getElem?_eq_some_iff.1 hd0
        obtain ⟨g3, g4⟩ := List.getElem?_eq_some_iff.1 hget
        rcases Nat.eq_zero_or_pos j with rfl | hpos
        · rw [← g2, ← g4]
        · rw [← g2, ← g4]
          exact List.pairwise_iff_getElem.1 hS 0 j g1 g3 hpos
      omega
  | ok l =>
    obtain ⟨q, hq, -⟩ := (C18_drive_complete hb _ tol htol rec h0 hS hN l hd j).2
      ⟨k, hk, t.time i, tk, hget, h1, by rw [abs_le]; omega⟩
    simp only [addOcb, hp, bind, Except.bind, pure, Except.pure, if_neg hrec, hd]
    cases l with
    | nil => simp at hq
    | cons q0 l => simp [doRows, doRow, Height.get, bind, Except.bind]

/-! ## An instance -/

/-- Two rows, at the times 0 and 1000. -/
def exTable : Table :=
  { vars := ["lat".toList, "mlt".toList, "vn".toList, "phi".toList], rows := 2, cell := fun _ _ => .fin 1
    time := fun i => 1000 * i }

/-- A potential that is scaled as a number and a vector. -/
def exNames : Names :=
  ⟨"lat".toList, "mlt".toList, ["phi".toList, "vel".toList], [], [("vel".toList, [("vect_n".toList, .text "vn".toList)])]⟩

def exPlan : Plan :=
  ⟨["phi".toList], [], [("vel".toList, [("vect_n".toList, .text "vn".toList), ("scale_func".toList, .fn .evar)])],
    ["lat".toList, "mlt".toList, "phi".toList, "vn".toList]⟩

def exLib : Lib :=
  ⟨fun _ x y _ => .ok (x, y, .fin 0), fun _ _ _ _ _ => .ok fun _ => .fin 2, fun _ x => x, fun _ x _ => .ok x⟩

theorem exUsed : usedRows exTable exNames.mlat exPlan.need 1 = [0, 1] := by
  have h : ∀ i, rowUsed exTable exNames.mlat exPlan.need 1 i = true := by
    intro i
    simp [rowUsed, exTable, exPlan, signIs, sgn, rowMax, skipMax, isFin, Fl.le]
  rw [usedRows]
  have : List.range exTable.rows = [0, 1] := rfl
  rw [this]
  simp [h]

/-- The hypotheses of `C94_rows` and `C94_succeeds` hold for this table and one boundary record at time 0: the first row
is filled, the second is blank. -/
example : ∃ o, addOcb exLib (dualCycler [0]) 0 60 exTable exNames (.column fun _ => .fin 0) [] [] 1 (bname .ocb) =
    .ok (some o) ∧ Filled exLib exTable ⟨exNames, exPlan, bname .ocb, .column fun _ => .fin 0, [], []⟩ o 0 0 ∧
    Blank o 1 := by
  have hb : IsBoundary (dualCycler [0]) (fun _ => True) := .dual [0] (by simp)
  have hp : plan exTable.vars exNames = .ok exPlan := by decide
  have hn : (written exNames exPlan (bname .ocb)).Nodup := by decide
  have hT : ∀ a b, a ≤ b → b < exTable.rows → exTable.time a ≤ exTable.time b := by
    intro a b hab _
    simp only [exTable]
    omega
  have h1 : ∀ k t, At [0] k t → k = 0 ∧ t = 0 := by
    intro k t ⟨hk, ht⟩
    match hk' : k.toNat, ht with
    | 0, ht => simp at ht; omega
    | m + 1, ht => simp at ht
  have hN : NondecOn (dualCycler [0]).times (Cand (fun _ => True) 0) := by
    intro a b s t _ _ _ hs ht
    have := h1 a s hs
    have := h1 b t ht
    omega
  obtain ⟨o, ho⟩ := C94_succeeds exLib ⟨fun _ _ _ _ => ⟨_, rfl⟩, fun _ _ _ _ _ => ⟨_, rfl⟩, fun _ _ _ => ⟨_, rfl⟩⟩ hb 0
    (by decide) 60 (by decide) exTable exNames (fun _ => .fin 0) [] [] 1 .ocb exPlan hp hn (by decide)
    (by unfold Clean; decide) (by decide) hT hN (by simp [dualCycler]) (by
      rw [exUsed]
      rintro ⟨-, ⟨h, -⟩ | ⟨-, h⟩⟩
      · simp at h
      · have := h 0 0 0 ⟨le_rfl, rfl⟩ ⟨le_rfl, .inl rfl⟩ (by simp [exTable])
        omega)
  have hrows := C94_rows exLib hb 0 (by decide) 60 (by decide) exTable exNames (.column fun _ => .fin 0) [] [] 1
    (bname .ocb) exPlan o hp hn ho
  refine ⟨o, ho, ?_, ?_⟩
  · rcases hrows 0 with ⟨r, -, -, ⟨tr, hr, -⟩, hf, -⟩ | ⟨-, hc⟩
    · obtain ⟨rfl, -⟩ := h1 r tr hr
      exact hf
    · exact absurd ⟨0, ⟨le_rfl, rfl⟩, by simp [exTable]⟩
        (hc hT hN (by rw [exUsed]; simp) 0 ⟨le_rfl, .inl rfl⟩)
  · rcases hrows 1 with ⟨r, -, -, ⟨tr, hr, h⟩, -⟩ | ⟨hc, -⟩
    · obtain ⟨-, rfl⟩ := h1 r tr hr
      exact absurd h (by simp [exTable])
    · exact hc

/-- The same table without a column of heights: `C98_default_height_refuted` applies. -/
example : addOcb exLib (dualCycler [0]) 0 60 exTable exNames (.scalar (.fin 0)) [] [] 1 (bname .ocb) =
    .error .indexError := by
  have h1 : ∀ k t, At [0] k t → k = 0 ∧ t = 0 := by
    intro k t ⟨hk, ht⟩
    match hk' : k.toNat, ht with
    | 0, ht => simp at ht; omega
    | m + 1, ht => simp at ht
  refine C98_default_height_refuted exLib (.dual [0] (by simp)) 0 (by decide) 60 (by decide) exTable exNames _ _ _ 1 _
    exPlan (by decide) ?_ ?_ 0 (by rw [exUsed]; simp) 0 ⟨le_rfl, .inl rfl⟩ ⟨0, ⟨le_rfl, rfl⟩, by simp [exTable]⟩
  · intro a b hab _
    simp only [exTable]
    omega
  · intro a b s t _ _ _ hs ht
    have := h1 a s hs
    have := h1 b t ht
    omega

end Ocb.Pysat
