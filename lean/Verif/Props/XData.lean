import Verif.Model.XData
import Verif.Lemmas.Basic
import Verif.Props.Grid
import Verif.Props.PysatRows

/-! # C210, C211, C212: data of xarray sets -/

set_option autoImplicit false

namespace Ocb.XData

open Ocb.Files (Name)
open Ocb.Grid
open Ocb.Cycle
open Ocb.Pysat (V isFin rowMax skipMax sgn Lib Fn Names Plan plan under Arg attrs keySet outKeys)

/-! ## The loop -/

theorem lookup_at {α β : Type} [BEq α] [LawfulBEq α] {l : List (α × β)} (hn : (l.map Prod.fst).Nodup) {ix : α} {v : β} (h : (ix, v) ∈ l) :
    l.lookup ix = some v := by
  induction l with
  | nil => simp at h
  | cons p l ih =>
    obtain ⟨jx, w⟩ := p
    rw [List.map_cons, List.nodup_cons] at hn
    rw [List.lookup_cons]
    rcases List.mem_cons.1 h with h' | h'
    · simp only [Prod.mk.injEq] at h'
      simp [h'.1, h'.2]
    · have : ix ≠ jx := by
        rintro rfl
        exact hn.1 (List.mem_map.2 ⟨_, h', rfl⟩)
      rw [beq_false_of_ne this]
      exact ih hn.2 h'

theorem lookup_off {l : List (List ℕ × V)} {ix : List ℕ} (h : ix ∉ l.map Prod.fst) : l.lookup ix = none := by
  induction l with
  | nil => rfl
  | cons p l ih =>
    obtain ⟨jx, w⟩ := p
    simp only [List.map_cons, List.mem_cons, not_or] at h
    rw [List.lookup_cons, beq_false_of_ne h.1]
    exact ih h.2

theorem store_at {o : Out} {k : Name} {l : List (List ℕ × V)} (hn : (l.map Prod.fst).Nodup) {ix : List ℕ} {v : V}
    (h : (ix, v) ∈ l) : store o k l k ix = v := by
  simp only [store, if_true, lookup_at hn h, Option.getD_some]

theorem store_off {o : Out} {k k' : Name} {l : List (List ℕ × V)} {ix : List ℕ} (h : ix ∉ l.map Prod.fst) :
    store o k l k' ix = o k' ix := by
  simp only [store, lookup_off h, Option.getD_none]
  split_ifs with e
  · rw [e]
  · rfl

theorem store_key {o : Out} {k k' : Name} {l : List (List ℕ × V)} (h : k' ≠ k) : store o k l k' = o k' := by
  funext ix
  simp only [store, if_neg h]

/-- `mapE` of values that keep their cell -/
theorem mapE_cells {α β γ : Type} {f : α → Except PyErr β} {g : α → γ} {l : List α} {res : List (γ × β)}
    (h : mapE (fun a => do let v ← f a; return (g a, v)) l = .ok res) :
    res.map Prod.fst = l.map g ∧ ∀ a ∈ l, ∃ v, f a = .ok v ∧ (g a, v) ∈ res := by
  induction l generalizing res with
  | nil => simp only [mapE, Except.ok.injEq] at h; subst h; simp
  | cons a l ih =>
    simp only [mapE] at h
    cases hf : f a with
    | error e => simp [hf, bind, Except.bind] at h
    | ok v =>
      simp only [hf, bind, Except.bind, pure, Except.pure] at h ih
      split at h
      · simp at h
      · rename_i bs hbs
        simp only [Except.ok.injEq] at h
        subst h
        obtain ⟨h1, h2⟩ := ih hbs
        refine ⟨by simp [h1], fun a' ha' => ?_⟩
        rcases List.mem_cons.1 ha' with rfl | ha'
        · exact ⟨v, hf, by simp⟩
        · obtain ⟨w, e1, e2⟩ := h2 a' ha'
          exact ⟨w, e1, List.mem_cons_of_mem _ e2⟩

theorem spread_len {l l' : List V} {k : ℕ} (h : spread l k = .ok l') : l'.length = k := by
  unfold spread at h
  split at h
  · rename_i e
    simp only [Except.ok.injEq] at h
    rw [← h, e]
  · split at h
    · simp only [Except.ok.injEq] at h
      rw [← h, List.length_replicate]
    · simp at h

/-- The scaled variables of one kind: each cell gets the value in its place. -/
theorem putScaled_spec {L : Lib} {E : Env} {f : Fn} {t : ℕ} {r : ℤ} {ixs cells : List (List ℕ)} (hc : cells.Nodup)
    {es : List Name} {o o' : Out} (h : putScaled L E f t r ixs cells es o = .ok o')
    (hn : (es.map fun e => under e E.b).Nodup) (hr : under "r_corr".toList E.b ∉ es.map fun e => under e E.b) :
    (∀ k, k ∉ es.map (fun e => under e E.b) → o' k = o k) ∧ (∀ k ix, ix ∉ cells → o' k ix = o k ix) ∧
      ∀ e ∈ es, ∃ l l', evarAt E t ixs e = .ok l ∧ spread l cells.length = .ok l' ∧
        ∀ (j : ℕ) ix v, cells[j]? = some ix → l'[j]? = some v →
          ∃ s, L.scale f v (L.radius r (o (under "r_corr".toList E.b) ix)) = .ok s ∧ o' (under e E.b) ix = s := by
  induction es generalizing o with
  | nil =>
    simp only [putScaled, Except.ok.injEq] at h
    subst h
    simp
  | cons e es ih =>
    rw [List.map_cons, List.nodup_cons] at hn
    simp only [List.map_cons, List.mem_cons, not_or] at hr
    simp only [putScaled, bind, Except.bind] at h
    split at h
    · simp at h
    rename_i l hl
    split at h
    · simp at h
    rename_i l' hl'
    split at h
    · simp at h
    rename_i res hres
    obtain ⟨m1, m2⟩ := mapE_cells (f := fun c : List ℕ × V => L.scale f c.2 (L.radius r (o (under "r_corr".toList E.b) c.1)))
      (g := Prod.fst) hres
    have hlen := spread_len hl'
    have hz : (cells.zip l').map Prod.fst = cells := List.map_fst_zip (by omega)
    have m1' : res.map Prod.fst = cells := by rw [m1]; exact hz
    obtain ⟨i1, i2, i3⟩ := ih h hn.2 hr.2
    have hro : store o (under e E.b) res (under "r_corr".toList E.b) = o (under "r_corr".toList E.b) := store_key hr.1
    refine ⟨?_, ?_, ?_⟩
    · intro k hk
      simp only [List.map_cons, List.mem_cons, not_or] at hk
      rw [i1 k hk.2, store_key hk.1]
    · intro k ix hix
      rw [i2 k ix hix, store_off (by rw [m1']; exact hix)]
    · intro e' he'
      rcases List.mem_cons.1 he' with rfl | he'
      · refine ⟨l, l', hl, hl', fun j ix v hj hv => ?_⟩
        obtain ⟨s, s1, s2⟩ := m2 (ix, v) (by
          rw [List.mem_iff_getElem?]
          exact ⟨j, by rw [List.getElem?_zip_eq_some]; exact ⟨hj, hv⟩⟩)
        refine ⟨s, s1, ?_⟩
        rw [i1 _ hn.1]
        exact store_at (by rw [m1']; exact hc) s2
      · obtain ⟨a, a', b1, b2, b3⟩ := i3 e' he'
        refine ⟨a, a', b1, b2, fun j ix v hj hv => ?_⟩
        obtain ⟨s, s1, s2⟩ := b3 j ix v hj hv
        exact ⟨s, by rw [← hro]; exact s1, s2⟩

/-- Assignments to different keys -/
theorem fold_store {α : Type} (f : α → Name) (g : α → List (List ℕ × V)) (ps : List α) (hn : (ps.map f).Nodup) (o : Out) :
    (∀ k, k ∉ ps.map f → ps.foldl (fun o q => store o (f q) (g q)) o k = o k) ∧
    (∀ k ix, (∀ q ∈ ps, ix ∉ (g q).map Prod.fst) → ps.foldl (fun o q => store o (f q) (g q)) o k ix = o k ix) ∧
    ∀ q ∈ ps, ∀ ix v, ((g q).map Prod.fst).Nodup → (ix, v) ∈ g q → ps.foldl (fun o q => store o (f q) (g q)) o (f q) ix = v := by
  induction ps generalizing o with
  | nil => simp
  | cons q ps ih =>
    rw [List.map_cons, List.nodup_cons] at hn
    obtain ⟨i1, i2, i3⟩ := ih hn.2 (store o (f q) (g q))
    refine ⟨fun k hk => ?_, fun k ix hk => ?_, fun q' hq' ix v hg hv => ?_⟩
    · rw [List.map_cons, List.mem_cons, not_or] at hk
      rw [List.foldl_cons, i1 k hk.2, store_key hk.1]
    · rw [List.foldl_cons, i2 k ix fun q' hq' => hk q' (List.mem_cons_of_mem _ hq'), store_off (hk q (by simp))]
    · rw [List.foldl_cons]
      rcases List.mem_cons.1 hq' with rfl | hq'
      · rw [i1 _ hn.1]
        exact store_at hg hv
      · exact i3 q' hq' ix v hg hv

theorem vects_nodup {p : Plan} (h : (vectPairs p).Nodup) : (p.vects.map Prod.fst).Nodup := by
  rw [vectPairs, List.nodup_flatMap] at h
  refine h.2.imp fun {a b} hd hab => ?_
  subst hab
  exact hd (a := (a, "ocb_n".toList)) (List.mem_map.2 ⟨_, by simp [attrs], rfl⟩) (List.mem_map.2 ⟨_, by simp [attrs], rfl⟩)

/-- The dictionaries of the vectors for a cell -/
def cellInits (E : Env) (o : Out) (lists : List (Name × List V)) (j : ℕ) (ix : List ℕ) : List (Name × Ocb.Pysat.Init) :=
  Ocb.Pysat.inits (cellTable E.S lists) j (Ocb.Pysat.default (o (under E.n.mlat E.b) ix) (o (under E.n.mlt E.b) ix)
    (o (under "r_corr".toList E.b) ix) (E.loc.height.val ix) E.locC E.vecC) E.p.vects

/-- The vectors of one time: each cell gets what its dictionary gives. -/
theorem putVects_spec {L : Lib} {E : Env} {t : ℕ} {r : ℤ} {ixs cells : List (List ℕ)} (hc : cells.Nodup) {o o' : Out}
    (h : putVects L E t r ixs cells o = .ok o') (hn : ((vectPairs E.p).map fun q => keySet E.b q.1 q.2).Nodup) :
    (∀ k, k ∉ (vectPairs E.p).map (fun q => keySet E.b q.1 q.2) → o' k = o k) ∧ (∀ k ix, ix ∉ cells → o' k ix = o k ix) ∧
      ∃ lists, vectLists E t ixs cells.length = .ok lists ∧ ∀ (j : ℕ) ix, cells[j]? = some ix →
        ∀ v ∈ cellInits E o lists j ix, ∃ f, L.vect r t (E.loc.lat.val ix) (E.loc.lt.val ix) v.2 = .ok f ∧
          ∀ a ∈ attrs, o' (keySet E.b v.1 a) ix = f a := by
  simp only [putVects, bind, Except.bind, pure, Except.pure] at h
  split at h
  · simp at h
  rename_i lists hlists
  split at h
  · simp at h
  rename_i res hres
  simp only [Except.ok.injEq] at h
  obtain ⟨m1, m2⟩ := mapE_cells (f := fun c : List ℕ × ℕ => mapE (fun v : Name × Ocb.Pysat.Init => do
      let f ← L.vect r t (E.loc.lat.val c.1) (E.loc.lt.val c.1) v.2
      return (v.1, f)) (cellInits E o lists c.2 c.1)) (g := Prod.fst) hres
  rw [List.zipIdx_map_fst] at m1
  obtain ⟨s1, s2, s3⟩ := fold_store (fun q : Name × Name => keySet E.b q.1 q.2)
    (fun q => res.map fun c => (c.1, ((c.2.lookup q.1).map fun f => f q.2).getD .nan)) (vectPairs E.p) hn o
  have k1 : ∀ g : List (Name × (Name → V)) → V, ((res.map fun c => (c.1, g c.2)).map Prod.fst) = cells := by
    intro g
    rw [List.map_map]
    exact m1
  rw [h] at s1 s2 s3
  refine ⟨s1, fun k ix hix => s2 k ix fun q _ => ?_, lists, hlists, fun j ix hj v hv => ?_⟩
  · rw [k1 fun c => ((c.lookup q.1).map fun f => f q.2).getD .nan]
    exact hix
  · obtain ⟨vs, v1, v2⟩ := m2 (ix, j) (by rw [List.mem_zipIdx_iff_getElem?]; exact hj)
    obtain ⟨w1, w2⟩ := mapE_cells (f := fun v : Name × Ocb.Pysat.Init => L.vect r t (E.loc.lat.val ix) (E.loc.lt.val ix) v.2)
      (g := Prod.fst) v1
    obtain ⟨f, f1, f2⟩ := w2 v hv
    have hnames : (cellInits E o lists j ix).map Prod.fst = E.p.vects.map Prod.fst := Ocb.Pysat.inits_names _ _ _ _
    have hvn : v.1 ∈ E.p.vects.map Prod.fst := by
      rw [← hnames]
      exact List.mem_map.2 ⟨v, hv, rfl⟩
    refine ⟨f, f1, fun a ha => ?_⟩
    refine s3 (v.1, a) (List.mem_flatMap.2 ⟨v.1, hvn, List.mem_map.2 ⟨a, ha, rfl⟩⟩) ix (f a) ?_ ?_
    · rw [k1 fun c => ((c.lookup v.1).map fun f => f a).getD .nan]
      exact hc
    · refine List.mem_map.2 ⟨(ix, vs), v2, ?_⟩
      have hl : vs.lookup v.1 = some f := by
        refine lookup_at ?_ f2
        rw [w1]
        have := vects_nodup (List.Nodup.of_map _ hn)
        rwa [← hnames] at this
      simp only [hl, Option.map_some, Option.getD_some]

theorem nodup_indices (sh : List ℕ) : (indices sh).Nodup := by
  induction sh with
  | nil => simp [indices]
  | cons n sh ih =>
    rw [indices, List.nodup_flatMap]
    constructor
    · intro i _
      exact ih.map fun a b h => by simpa using h
    · refine List.nodup_range.imp ?_
      intro a b hab x hx hy
      obtain ⟨u, -, rfl⟩ := List.mem_map.1 hx
      obtain ⟨w, -, e⟩ := List.mem_map.1 hy
      simp only [List.cons.injEq] at e
      exact hab e.1.symm

/-- The indices are cells of the arrays. -/
theorem below_full {sh ix : List ℕ} (h : ix ∈ indices sh) : below sh ix = .ok [ix] := by
  have h1 := (mem_indices _ _).1 h
  obtain ⟨h2, -⟩ := forall₂_get h1
  rw [below, if_pos]
  · rw [h2, List.drop_length]
    simp [indices]
  · refine ⟨h2.le, ?_⟩
    rw [List.all_eq_true]
    rintro ⟨a, b⟩ hab
    simpa using List.forall₂_iff_zip.1 h1 |>.2 hab

/-- The data fit the grid: the true cells of the mask are cells of the arrays of the locations. -/
structure Match (E : Env) : Prop where
  size : (mask E.S E.p.need E.n.mlat E.h).size = E.loc.lat.size
  one : ¬ 1 < (datCoords E.S E.p.need).length → E.loc.lat.size.length = 1

/-- The columns that one pass of the loop writes -/
def keys (E : Env) : List Name := writes E.n E.p E.b

/-- The cells at a time hold what the record `r` gives. -/
def Done (L : Lib) (E : Env) (o : Out) (t : ℕ) (r : ℤ) : Prop :=
  let cells := cellsAt (mask E.S E.p.need E.n.mlat E.h) t
  (∀ ix ∈ cells, ∃ v, L.norm r (E.loc.lat.val ix) (E.loc.lt.val ix) (E.loc.height.val ix) = .ok v ∧
    o (under E.n.mlat E.b) ix = v.1 ∧ o (under E.n.mlt E.b) ix = v.2.1 ∧ o (under "r_corr".toList E.b) ix = v.2.2) ∧
  (∀ f es, (f = Fn.evar ∧ es = E.p.evars) ∨ (f = Fn.curl ∧ es = E.p.curls) → ∀ e ∈ es,
    ∃ l l', evarAt E t cells e = .ok l ∧ spread l cells.length = .ok l' ∧
      ∀ (j : ℕ) ix v, cells[j]? = some ix → l'[j]? = some v →
        ∃ s, L.scale f v (L.radius r (o (under "r_corr".toList E.b) ix)) = .ok s ∧ o (under e E.b) ix = s) ∧
  ∃ lists, vectLists E t cells cells.length = .ok lists ∧ ∀ (j : ℕ) ix, cells[j]? = some ix →
    ∀ v ∈ cellInits E o lists j ix, ∃ f, L.vect r t (E.loc.lat.val ix) (E.loc.lt.val ix) v.2 = .ok f ∧
      ∀ a ∈ attrs, o (keySet E.b v.1 a) ix = f a

theorem cells_mem {m : Arr Bool} {t : ℕ} {ix : List ℕ} :
    ix ∈ cellsAt m t ↔ ix ∈ indices m.size ∧ m.val ix = true ∧ ix.headD 0 = t := by
  simp [cellsAt]

theorem parts_eq {E : Env} (hm : Match E) (t : ℕ) :
    ((cellsAt (mask E.S E.p.need E.n.mlat E.h) t).map fun ix =>
      if 1 < (datCoords E.S E.p.need).length then ix else ix.take 1) = cellsAt (mask E.S E.p.need E.n.mlat E.h) t ∧
    mapE (below E.loc.lat.size) (cellsAt (mask E.S E.p.need E.n.mlat E.h) t) =
      .ok ((cellsAt (mask E.S E.p.need E.n.mlat E.h) t).map fun ix => [ix]) := by
  constructor
  · conv_rhs => rw [← List.map_id (cellsAt (mask E.S E.p.need E.n.mlat E.h) t)]
    apply List.map_congr_left
    intro ix hix
    split_ifs with h
    · rfl
    · have h1 := (forall₂_get ((mem_indices _ _).1 (cells_mem.1 hix).1)).1
      rw [hm.size, hm.one h] at h1
      exact List.take_of_length_le h1.le
  · apply mapE_map
    intro ix hix
    apply below_full
    rw [← hm.size]
    exact (cells_mem.1 hix).1

theorem flatten_single {α : Type} (l : List α) : (l.map fun x => [x]).flatten = l := by
  induction l with
  | nil => rfl
  | cons a l ih => simp [ih]

/-- One pass of the loop: the cells of the time are filled, the others stay. -/
theorem doTime_spec {L : Lib} {E : Env} (hm : Match E) (hn : (keys E).Nodup) {o o' : Out} {t : ℕ} {r : ℤ}
    (h : doTime L E o t r = .ok o') : Done L E o' t r ∧
      ∀ k ix, ix ∉ cellsAt (mask E.S E.p.need E.n.mlat E.h) t → o' k ix = o k ix := by
  obtain ⟨p1, p2⟩ := parts_eq hm t
  simp only [doTime, p1, p2, bind, Except.bind, flatten_single] at h
  have hc : (cellsAt (mask E.S E.p.need E.n.mlat E.h) t).Nodup := (nodup_indices _).filter _
  simp only [Done]
  set cells := cellsAt (mask E.S E.p.need E.n.mlat E.h) t with hcells
  split_ifs at h
  split at h
  · simp at h
  rename_i res hres
  split at h
  · simp at h
  rename_i ov hov
  split at h
  · simp at h
  rename_i o1 ho1
  obtain ⟨m1, m2⟩ := mapE_cells (g := fun ix => ix)
    (f := fun ix => L.norm r (E.loc.lat.val ix) (E.loc.lt.val ix) (E.loc.height.val ix)) hres
  rw [List.map_id'] at m1
  set VK := (vectPairs E.p).map fun q => keySet E.b q.1 q.2 with hVK
  set EK := E.p.evars.map fun e => under e E.b with hEK
  set CK := E.p.curls.map fun e => under e E.b with hCK
  have hn' : (under E.n.mlat E.b :: under E.n.mlt E.b :: under "r_corr".toList E.b :: (VK ++ (EK ++ CK))).Nodup := by
    have : keys E = under E.n.mlat E.b :: under E.n.mlt E.b :: under "r_corr".toList E.b :: (VK ++ (EK ++ CK)) := by
      simp only [keys, writes, List.cons_append, List.nil_append, List.append_assoc, hVK, hEK, hCK]
    rwa [this] at hn
  simp only [List.nodup_cons, List.mem_cons, not_or, List.nodup_append, List.mem_append] at hn'
  obtain ⟨⟨n12, n13, n1v, n1e, n1c⟩, ⟨n23, n2v, n2e, n2c⟩, ⟨n3v, n3e, n3c⟩, nv, ⟨ne, nc, nec⟩, nvs⟩ := hn'
  have k1 : ∀ g : V × V × V → V, ((res.map fun c => (c.1, g c.2)).map Prod.fst) = cells := by
    intro g
    rw [List.map_map]
    exact m1
  obtain ⟨v1, v2, lists, v3, v4⟩ := putVects_spec hc hov nv
  obtain ⟨a1, a2, a3⟩ := putScaled_spec hc ho1 ne n3e
  obtain ⟨b1, b2, b3⟩ := putScaled_spec hc h nc n3c
  refine ⟨⟨?_, ?_, ?_⟩, ?_⟩
  · intro ix hix
    obtain ⟨v, w1, w2⟩ := m2 ix hix
    refine ⟨v, w1, ?_, ?_, ?_⟩
    · rw [b1 _ n1c, a1 _ n1e, v1 _ n1v, store_key n13, store_key n12]
      exact store_at (by rw [k1 fun v => v.1]; exact hc) (List.mem_map.2 ⟨_, w2, rfl⟩)
    · rw [b1 _ n2c, a1 _ n2e, v1 _ n2v, store_key n23]
      exact store_at (by rw [k1 fun v => v.2.1]; exact hc) (List.mem_map.2 ⟨_, w2, rfl⟩)
    · rw [b1 _ n3c, a1 _ n3e, v1 _ n3v]
      exact store_at (by rw [k1 fun v => v.2.2]; exact hc) (List.mem_map.2 ⟨_, w2, rfl⟩)
  · rintro f es (⟨rfl, rfl⟩ | ⟨rfl, rfl⟩) e he
    · obtain ⟨l, l', c1, c2, c3⟩ := a3 e he
      refine ⟨l, l', c1, c2, fun j ix v hj hv => ?_⟩
      obtain ⟨s, s1, s2⟩ := c3 j ix v hj hv
      refine ⟨s, ?_, ?_⟩
      · rw [b1 _ n3c, a1 _ n3e]
        exact s1
      · rw [b1 _ fun hx => nec _ (List.mem_map.2 ⟨e, he, rfl⟩) _ hx rfl]
        exact s2
    · obtain ⟨l, l', c1, c2, c3⟩ := b3 e he
      refine ⟨l, l', c1, c2, fun j ix v hj hv => ?_⟩
      obtain ⟨s, s1, s2⟩ := c3 j ix v hj hv
      refine ⟨s, ?_, s2⟩
      rw [b1 _ n3c]
      exact s1
  · refine ⟨lists, v3, fun j ix hj v hv => ?_⟩
    have hv' := hv
    simp only [cellInits] at hv'
    rw [b1 _ n1c, a1 _ n1e, v1 _ n1v, b1 _ n2c, a1 _ n2e, v1 _ n2v, b1 _ n3c, a1 _ n3e, v1 _ n3v] at hv'
    obtain ⟨f, f1, f2⟩ := v4 j ix hj v hv'
    refine ⟨f, f1, fun a ha => ?_⟩
    have hk : keySet E.b v.1 a ∈ VK := by
      refine List.mem_map.2 ⟨(v.1, a), List.mem_flatMap.2 ⟨v.1, ?_, List.mem_map.2 ⟨a, ha, rfl⟩⟩, rfl⟩
      rw [← Ocb.Pysat.inits_names]
      exact List.mem_map.2 ⟨v, hv, rfl⟩
    rw [b1 _ fun hx => nvs _ hk _ (.inr hx) rfl, a1 _ fun hx => nvs _ hk _ (.inl hx) rfl]
    exact f2 a ha
  · intro k ix hix
    rw [b2 k ix hix, a2 k ix hix, v2 k ix hix, store_off (by rw [k1 fun v => v.2.2]; exact hix),
      store_off (by rw [k1 fun v => v.2.1]; exact hix), store_off (by rw [k1 fun v => v.1]; exact hix)]

theorem Done.congr {L : Lib} {E : Env} {o o' : Out} {t : ℕ} {r : ℤ} (h : Done L E o t r)
    (he : ∀ k, ∀ ix ∈ cellsAt (mask E.S E.p.need E.n.mlat E.h) t, o' k ix = o k ix) : Done L E o' t r := by
  obtain ⟨lists, v1, v2⟩ := h.2.2
  refine ⟨fun ix hix => ?_, fun f es hf e hes => ?_, lists, v1, fun j ix hj v hv => ?_⟩
  · rw [he _ ix hix, he _ ix hix, he _ ix hix]
    exact h.1 ix hix
  · obtain ⟨l, l', c1, c2, c3⟩ := h.2.1 f es hf e hes
    refine ⟨l, l', c1, c2, fun j ix v hj hv => ?_⟩
    have hix : ix ∈ cellsAt (mask E.S E.p.need E.n.mlat E.h) t := List.mem_of_getElem? hj
    rw [he _ ix hix, he _ ix hix]
    exact c3 j ix v hj hv
  · have hix : ix ∈ cellsAt (mask E.S E.p.need E.n.mlat E.h) t := List.mem_of_getElem? hj
    simp only [cellInits, he _ ix hix] at hv
    obtain ⟨f, f1, f2⟩ := v2 j ix hj v hv
    exact ⟨f, f1, fun a ha => by rw [he _ ix hix]; exact f2 a ha⟩

theorem doTimes_spec {L : Lib} {E : Env} (hm : Match E) (hn : (keys E).Nodup) {l : List (ℕ × ℤ)} {o o' : Out}
    (h : doTimes L E l o = .ok o') (hl : (l.map Prod.fst).Nodup) : (∀ q ∈ l, Done L E o' q.1 q.2) ∧
      ∀ k ix, (∀ q ∈ l, ix ∉ cellsAt (mask E.S E.p.need E.n.mlat E.h) q.1) → o' k ix = o k ix := by
  induction l generalizing o with
  | nil =>
    simp only [doTimes, Except.ok.injEq] at h
    subst h
    simp
  | cons q l ih =>
    obtain ⟨t, r⟩ := q
    rw [List.map_cons, List.nodup_cons] at hl
    simp only [doTimes, bind, Except.bind] at h
    split at h
    · simp at h
    rename_i o1 ho1
    obtain ⟨d1, d2⟩ := doTime_spec hm hn ho1
    obtain ⟨i1, i2⟩ := ih h hl.2
    refine ⟨fun q hq => ?_, fun k ix hk => ?_⟩
    · rcases List.mem_cons.1 hq with rfl | hq
      · refine d1.congr fun k ix hix => i2 k ix fun q hq hc => ?_
        have e1 := (cells_mem.1 hix).2.2
        have e2 := (cells_mem.1 hc).2.2
        exact hl.1 (List.mem_map.2 ⟨q, hq, by rw [← e2, e1]⟩)
      · exact i1 q hq
    · rw [i2 k ix fun q hq => hk q (List.mem_cons_of_mem _ hq), d2 k ix (hk (t, r) (by simp))]

/-! ## Specification -/

/-- The value of a variable at labels: an index for each dimension. -/
def cell (S : XSet) (k : Name) (σ : Name → ℕ) : V := (S.arr k).val ((S.arr k).dims.map σ)

/-- Each variable has the dimensions of the set, and each coordinate is a dimension. -/
structure Sound (S : XSet) (ks : List Name) : Prop where
  nodup : S.coords.Nodup
  apart : ∀ c ∈ S.coords, c ∉ S.vars
  coord : ∀ c ∈ S.coords, (S.arr c).dims = [c] ∧ (S.arr c).size = [S.len c]
  index : S.index ∈ S.coords
  times : S.len S.index = S.time.length
  arr : ∀ k ∈ ks, (S.arr k).dims.Nodup ∧ (∀ d ∈ (S.arr k).dims, d ∈ S.coords) ∧ (S.arr k).size = (S.arr k).dims.map S.len

/-- The dimensions of the locations: a time series of latitudes and local times; or latitudes along a dimension of their
own, and local times that depend on the time first.  In the second case the local times are not as many as the latitudes,
and their dimensions are in the order of the coordinates. -/
inductive Base (S : XSet) (mlat mlt : Name) : List Name → Prop where
  | series : mlat ∈ S.vars → mlt ∈ S.vars → (S.arr mlat).dims = [S.index] → (S.arr mlt).dims = [S.index] →
      Base S mlat mlt [S.index]
  | grid (rest : List Name) : mlat ∈ S.coords → mlt ∈ S.vars → (S.arr mlt).dims = S.index :: rest →
      mlat ∉ (S.arr mlt).dims → S.coords.filter (· ∈ (S.arr mlt).dims) = (S.arr mlt).dims →
      [S.len mlat] ≠ (S.arr mlt).dims.map S.len → Base S mlat mlt ((S.arr mlt).dims ++ [mlat])

/-- The dimensions of all data: those of the locations, and further ones that a variable has either all in the order of
the coordinates or not at all.  A height that is a single number needs more dimensions than the time. -/
structure Layout (S : XSet) (mlat mlt : Name) (need : List Name) (hgt : Height) (base extra : List Name) : Prop where
  locs : Base S mlat mlt base
  names : ∀ k ∈ need, k ∈ S.vars ∨ k = mlat
  dims : ∀ k ∈ need, k ∈ S.vars → (S.arr k).dims.filter (· ∉ base) = [] ∨ (S.arr k).dims.filter (· ∉ base) = extra
  used : ∃ k ∈ need, k ∈ S.vars ∧ (S.arr k).dims.filter (· ∉ base) = extra
  order : S.coords.filter (· ∈ extra) = extra
  scalar : ∀ v, hgt = .scalar v → base ++ extra ≠ [S.index]
  named : ∀ k, hgt = .named k → (S.arr k).dims = base ∧ (S.arr k).size = base.map S.len

/-! ## The dimensions -/

theorem unify_two (a b : List Name) : unify [a, b] = a ++ b.filter (· ∉ a) := by
  simp [unify]

theorem fold_seen {base extra : List Name} (us : List (List Name))
    (h : ∀ u ∈ us, u.filter (· ∉ base) = [] ∨ u.filter (· ∉ base) = extra) (acc : List Name)
    (ha : acc = base ∨ acc = base ++ extra) :
    (us.foldl (fun acc ds => acc ++ ds.filter (· ∉ acc)) acc = base ∨
      us.foldl (fun acc ds => acc ++ ds.filter (· ∉ acc)) acc = base ++ extra) ∧
    ((acc = base ++ extra ∨ ∃ u ∈ us, u.filter (· ∉ base) = extra) →
      us.foldl (fun acc ds => acc ++ ds.filter (· ∉ acc)) acc = base ++ extra) := by
  induction us generalizing acc with
  | nil => simpa using ha
  | cons u us ih =>
    simp only [List.foldl_cons]
    have hu := h u (by simp)
    have h' : ∀ u ∈ us, u.filter (· ∉ base) = [] ∨ u.filter (· ∉ base) = extra := fun u hu => h u (by simp [hu])
    rcases ha with rfl | rfl
    · rcases hu with hu | hu
      · rw [hu, List.append_nil]
        obtain ⟨i1, i2⟩ := ih h' acc (.inl rfl)
        refine ⟨i1, fun hh => ?_⟩
        rcases hh with hh | ⟨w, hw, e⟩
        · exact i2 (.inl hh)
        · rcases List.mem_cons.1 hw with rfl | hw
          · exact i2 (.inl (by rw [← e, hu, List.append_nil]))
          · exact i2 (.inr ⟨w, hw, e⟩)
      · rw [hu]
        obtain ⟨i1, i2⟩ := ih h' (acc ++ extra) (.inr rfl)
        exact ⟨i1, fun _ => i2 (.inl rfl)⟩
    · have e0 : u.filter (· ∉ base ++ extra) = [] := by
        have : u.filter (· ∉ base ++ extra) = (u.filter (· ∉ base)).filter (· ∉ extra) := by
          rw [List.filter_filter]
          apply List.filter_congr
          intro x _
          simp [Bool.and_comm]
        rw [this]
        rcases hu with hu | hu <;> rw [hu] <;> simp
      rw [e0, List.append_nil]
      obtain ⟨i1, i2⟩ := ih h' (base ++ extra) (.inr rfl)
      exact ⟨i1, fun _ => i2 (.inl rfl)⟩

section
variable {S : XSet} {mlat mlt : Name} {rest : List Name} {hgt : Height} {base extra : List Name}

theorem Base.lat_sub (hb : Base S mlat mlt base) (hs : Sound S (mlat :: mlt :: rest)) : ∀ d ∈ (S.arr mlat).dims, d ∈ base := by
  cases hb with
  | series _ _ h _ => rw [h]; exact fun d hd => hd
  | grid _ hc _ _ _ _ _ =>
    rw [(hs.coord _ hc).1]
    simp

theorem Base.lt_sub (hb : Base S mlat mlt base) : ∀ d ∈ (S.arr mlt).dims, d ∈ base := by
  cases hb with
  | series _ _ _ h => rw [h]; exact fun d hd => hd
  | grid _ _ _ _ _ _ _ =>
    intro d hd
    simp [hd]

/-- The dimensions of the mask -/
theorem maskDims_eq (hs : Sound S (mlat :: mlt :: rest)) (hl : Layout S mlat mlt (mlat :: mlt :: rest) hgt base extra) :
    maskDims S (mlat :: mlt :: rest) mlat = base ++ extra := by
  have hu : ∀ k ∈ mlat :: mlt :: rest, k ∈ S.vars → (unify [(S.arr k).dims, (S.arr mlat).dims]).filter (· ∉ base) =
      (S.arr k).dims.filter (· ∉ base) := by
    intro k _ _
    rw [unify_two, List.filter_append]
    have : List.filter (fun x => decide (x ∉ base)) ((S.arr mlat).dims.filter (· ∉ (S.arr k).dims)) = [] := by
      rw [List.filter_eq_nil_iff]
      intro x hx
      simpa using hl.locs.lat_sub hs x (List.mem_filter.1 hx).1
    rw [this, List.append_nil]
  have main : ∀ ks : List Name, (∀ k ∈ ks, k ∈ mlat :: mlt :: rest) → (extra = [] ∨ ∃ k ∈ ks, k ∈ S.vars ∧ (S.arr k).dims.filter (· ∉ base) = extra) →
      ((dataNames S ks).map fun k => unify [(S.arr k).dims, (S.arr mlat).dims]).foldl (fun acc ds => acc ++ ds.filter (· ∉ acc)) base
        = base ++ extra := by
    intro ks hks hex
    refine (fold_seen _ ?_ base (.inl rfl)).2 ?_
    · intro u hu'
      obtain ⟨k, hk, rfl⟩ := List.mem_map.1 hu'
      obtain ⟨k1, k2⟩ := List.mem_filter.1 hk
      have k2 : k ∈ S.vars := by simpa using k2
      rw [hu k (hks k k1) k2]
      exact hl.dims k (hks k k1) k2
    · rcases hex with h | ⟨k, k1, k2, k3⟩
      · exact .inl (by rw [h, List.append_nil])
      · exact .inr ⟨_, List.mem_map.2 ⟨k, List.mem_filter.2 ⟨k1, by simpa using k2⟩, rfl⟩, by rw [hu k (hks k k1) k2, k3]⟩
  obtain ⟨k, k1, k2, k3⟩ := hl.used
  have hb := hl.locs
  have hlat : (S.arr mlat).dims.filter (· ∉ base) = [] := by
    rw [List.filter_eq_nil_iff]
    intro x hx
    simpa using hb.lat_sub hs x hx
  have hlt : (S.arr mlt).dims.filter (· ∉ base) = [] := by
    rw [List.filter_eq_nil_iff]
    intro x hx
    simpa using hb.lt_sub x hx
  cases hb with
  | series v1 v2 d1 d2 =>
    have := main (mlt :: rest) (fun k hk => List.mem_cons_of_mem _ hk) (by
      rcases List.mem_cons.1 k1 with rfl | k1
      · exact .inl (k3.symm.trans hlat)
      · exact .inr ⟨k, k1, k2, k3⟩)
    rw [maskDims, dataNames, List.filter_cons_of_pos (by simpa using v1), List.map_cons, unify, List.foldl_cons]
    rw [dataNames] at this
    rw [unify_two]
    rw [d1] at this ⊢
    simpa using this
  | grid E v1 v2 d1 d2 d3 d4 =>
    have hnv : mlat ∉ S.vars := hs.apart _ v1
    have := main rest (fun k hk => by simp [hk]) (by
      rcases List.mem_cons.1 k1 with rfl | k1
      · exact absurd k2 hnv
      rcases List.mem_cons.1 k1 with rfl | k1
      · exact .inl (k3.symm.trans hlt)
      · exact .inr ⟨k, k1, k2, k3⟩)
    rw [maskDims, dataNames, List.filter_cons_of_neg (by simpa using hnv), List.filter_cons_of_pos (by simpa using v2), List.map_cons,
      unify, List.foldl_cons]
    rw [dataNames] at this
    have e : unify [(S.arr mlt).dims, (S.arr mlat).dims] = (S.arr mlt).dims ++ [mlat] := by
      rw [unify_two, (hs.coord _ v1).1, List.filter_cons_of_pos (by simpa using d2)]
      rfl
    rw [e]
    have e0 : ([] : List Name) ++ ((S.arr mlt).dims ++ [mlat]).filter (fun x => decide (x ∉ ([] : List Name))) = (S.arr mlt).dims ++ [mlat] := by
      simp
    rw [e0]
    exact this

theorem base_nodup (hb : Base S mlat mlt base) (hs : Sound S (mlat :: mlt :: rest)) : base.Nodup ∧ ∀ d ∈ base, d ∈ S.coords := by
  cases hb with
  | series => simpa using hs.index
  | grid E v1 v2 d1 d2 d3 d4 =>
    obtain ⟨a1, a2, -⟩ := hs.arr mlt (by simp)
    constructor
    · rw [List.nodup_append]
      refine ⟨a1, by simp, fun x hx y hy => ?_⟩
      rw [List.mem_singleton.1 hy]
      rintro rfl
      exact d2 hx
    · intro d hd
      rcases List.mem_append.1 hd with h | h
      · exact a2 d h
      · rw [List.mem_singleton.1 h]
        exact v1

theorem extra_out (hl : Layout S mlat mlt (mlat :: mlt :: rest) hgt base extra) : ∀ d ∈ extra, d ∉ base := by
  obtain ⟨k, -, -, k3⟩ := hl.used
  intro d hd
  rw [← k3] at hd
  simpa using (List.mem_filter.1 hd).2

theorem all_nodup (hs : Sound S (mlat :: mlt :: rest)) (hl : Layout S mlat mlt (mlat :: mlt :: rest) hgt base extra) :
    (base ++ extra).Nodup := by
  rw [List.nodup_append]
  refine ⟨(base_nodup hl.locs hs).1, ?_, fun x hx y hy => ?_⟩
  · rw [← hl.order]
    exact hs.nodup.filter _
  · rintro rfl
    exact extra_out hl x hy hx

theorem mem_dims (hs : Sound S (mlat :: mlt :: rest)) (hl : Layout S mlat mlt (mlat :: mlt :: rest) hgt base extra) (d : Name) :
    d ∈ (mlat :: mlt :: rest).flatMap (fun k => (S.arr k).dims) ↔ d ∈ base ++ extra := by
  constructor
  · intro h
    obtain ⟨k, hk, hd⟩ := List.mem_flatMap.1 h
    rcases hl.names k hk with hv | rfl
    · by_cases hb : d ∈ base
      · simp [hb]
      · have : d ∈ (S.arr k).dims.filter (· ∉ base) := List.mem_filter.2 ⟨hd, by simpa using hb⟩
        rcases hl.dims k hk hv with e | e
        · rw [e] at this
          simp at this
        · rw [e] at this
          simp [this]
    · simp [hl.locs.lat_sub hs d hd]
  · intro h
    rw [List.mem_flatMap]
    rcases List.mem_append.1 h with h | h
    · have hb := hl.locs
      cases hb with
      | series v1 v2 d1 d2 => exact ⟨mlat, by simp, by rw [d1]; exact h⟩
      | grid E v1 v2 d1 d2 d3 d4 =>
        rcases List.mem_append.1 h with h | h
        · exact ⟨mlt, by simp, h⟩
        · exact ⟨mlat, by simp, by rw [(hs.coord _ v1).1]; exact h⟩
    · obtain ⟨k, k1, -, k3⟩ := hl.used
      rw [← k3] at h
      exact ⟨k, k1, (List.mem_filter.1 h).1⟩

/-- The dimensions of the data -/
theorem datCoords_eq (hs : Sound S (mlat :: mlt :: rest)) (hl : Layout S mlat mlt (mlat :: mlt :: rest) hgt base extra)
    (hn : (mlat :: mlt :: rest).Nodup) :
    (datCoords S (mlat :: mlt :: rest)).filter (· ∉ base) = extra ∧
      (datCoords S (mlat :: mlt :: rest)).length = base.length + extra.length := by
  have hperm : (datCoords S (mlat :: mlt :: rest)).Perm (base ++ extra) := by
    rw [List.perm_ext_iff_of_nodup ?_ (all_nodup hs hl)]
    · intro d
      have hm := mem_dims hs hl d
      simp only [datCoords, List.mem_append, List.mem_filter, decide_eq_true_eq]
      constructor
      · rintro (⟨h1, h2⟩ | ⟨-, h2, -⟩)
        · rcases hl.names d h1 with hv | rfl
          · exact absurd hv (hs.apart d h2)
          · rw [← List.mem_append, ← hm, List.mem_flatMap]
            exact ⟨d, h1, by rw [(hs.coord d h2).1]; simp⟩
        · rw [← List.mem_append]
          exact hm.1 h2
      · intro h
        rw [← List.mem_append] at h
        have hc : d ∈ S.coords := by
          rcases List.mem_append.1 h with h | h
          · exact (base_nodup hl.locs hs).2 d h
          · rw [← hl.order] at h
            exact (List.mem_filter.1 h).1
        by_cases hd : d ∈ mlat :: mlt :: rest
        · exact .inl ⟨hd, hc⟩
        · exact .inr ⟨hc, hm.2 h, hd⟩
    · rw [datCoords, List.nodup_append]
      refine ⟨hn.filter _, hs.nodup.filter _, fun x hx y hy => ?_⟩
      rintro rfl
      have h1 := (List.mem_filter.1 hx).1
      have h2 := (List.mem_filter.1 hy).2
      simp only [decide_eq_true_eq] at h2
      exact h2.2 h1
  constructor
  · rw [datCoords, List.filter_append, List.filter_filter, List.filter_filter]
    have e1 : (mlat :: mlt :: rest).filter (fun a => decide (a ∉ base) && decide (a ∈ S.coords)) = [] := by
      rw [List.filter_eq_nil_iff]
      intro x hx
      simp only [Bool.and_eq_true, decide_eq_true_eq, not_and]
      intro hxb hxc
      rcases hl.names x hx with hv | rfl
      · exact hs.apart x hxc hv
      · exact hxb (hl.locs.lat_sub hs x (by rw [(hs.coord x hxc).1]; simp))
    rw [e1, List.nil_append]
    conv_rhs => rw [← hl.order]
    apply List.filter_congr
    intro d hd
    have hm := mem_dims hs hl d
    rw [Bool.eq_iff_iff]
    simp only [Bool.and_eq_true, decide_eq_true_eq]
    constructor
    · rintro ⟨h1, h2, -⟩
      rcases List.mem_append.1 (hm.1 h2) with h | h
      · exact absurd h h1
      · exact h
    · intro h
      refine ⟨extra_out hl d h, hm.2 (by simp [h]), fun hd' => ?_⟩
      rcases hl.names d hd' with hv | rfl
      · exact hs.apart d hd hv
      · exact extra_out hl d h (hl.locs.lat_sub hs d (by rw [(hs.coord d hd).1]; simp))
  · rw [hperm.length_eq, List.length_append]

end

/-! ## The arrays of the locations -/

theorem flatMap_get {α β : Type} (f : α → List β) (m : ℕ) (hf : ∀ a, (f a).length = m) (l : List α) (i j : ℕ) (hj : j < m) {a : α}
    (ha : l[i]? = some a) : (l.flatMap f)[i * m + j]? = (f a)[j]? := by
  induction l generalizing i with
  | nil => simp at ha
  | cons b l ih =>
    cases i with
    | zero =>
      simp only [List.getElem?_cons_zero, Option.some.injEq] at ha
      subst ha
      rw [List.flatMap_cons, Nat.zero_mul, Nat.zero_add, List.getElem?_append_left (by rw [hf]; exact hj)]
    | succ i =>
      rw [List.flatMap_cons, List.getElem?_append_right (by rw [hf, Nat.succ_mul]; omega), hf]
      have : (i + 1) * m + j - m = i * m + j := by rw [Nat.succ_mul]; omega
      rw [this]
      exact ih i (by simpa using ha)

theorem indices_length (sh : List ℕ) : (indices sh).length = sh.prod := by
  induction sh with
  | nil => rfl
  | cons n sh ih => simp [indices, List.length_flatMap, ih]

theorem ravel_get {sh ix : List ℕ} (h : ix ∈ indices sh) : ravel ix sh < sh.prod ∧ (indices sh)[ravel ix sh]? = some ix := by
  replace h := (mem_indices _ _).1 h
  induction h with
  | nil => simp [ravel, indices]
  | @cons i n ix sh hi h ih =>
    simp only [ravel, List.prod_cons]
    obtain ⟨i1, i2⟩ := ih
    constructor
    · calc i * sh.prod + ravel ix sh < i * sh.prod + sh.prod := by omega
        _ = (i + 1) * sh.prod := by ring
        _ ≤ n * sh.prod := Nat.mul_le_mul_right _ hi
    · rw [indices, flatMap_get _ sh.prod (fun a => by rw [List.length_map, indices_length]) _ i _ i1
        (a := i) (by rw [List.getElem?_range hi]), List.getElem?_map, i2]
      rfl

theorem ravel_append {ix sh : List ℕ} (h : ix.length = sh.length) (jx sh' : List ℕ) :
    ravel (ix ++ jx) (sh ++ sh') = ravel ix sh * sh'.prod + ravel jx sh' := by
  induction ix generalizing sh with
  | nil =>
    rw [List.length_nil] at h
    rw [List.eq_nil_of_length_eq_zero h.symm]
    simp [ravel]
  | cons i ix ih =>
    match sh, h with
    | n :: sh, h =>
      simp only [List.cons_append, ravel, ih (sh := sh) (by simpa using h), List.prod_append]
      ring

theorem flat_get {a : Arr V} {ix : List ℕ} (h : ix ∈ indices a.size) : (flat a)[ravel ix a.size]? = some (a.val ix) := by
  rw [flat, List.getElem?_map, (ravel_get h).2]
  rfl

theorem map_mem {S : XSet} {ds : List Name} {σ : Name → ℕ} (h : ∀ d ∈ ds, σ d < S.len d) :
    ds.map σ ∈ indices (ds.map S.len) := by
  rw [mem_indices, List.forall₂_map_left_iff, List.forall₂_map_right_iff, List.forall₂_same]
  exact h

theorem filter_one {l : List Name} (hn : l.Nodup) {a : Name} (ha : a ∈ l) (p : Name → Bool) (hp : ∀ x ∈ l, p x = true ↔ x = a) :
    l.filter p = [a] := by
  induction l with
  | nil => simp at ha
  | cons b l ih =>
    rw [List.nodup_cons] at hn
    rcases List.mem_cons.1 ha with rfl | ha
    · rw [List.filter_cons_of_pos ((hp a (by simp)).2 rfl)]
      congr 1
      rw [List.filter_eq_nil_iff]
      intro x hx hc
      rw [(hp x (by simp [hx])).1 hc] at hx
      exact hn.1 hx
    · rw [List.filter_cons_of_neg, ih hn.2 ha fun x hx => hp x (by simp [hx])]
      intro hc
      rw [(hp b (by simp)).1 hc] at hn
      exact hn.1 ha

/-- The height at labels -/
def heightAt (S : XSet) (hgt : Height) (σ : Name → ℕ) : V :=
  match hgt with
  | .scalar v => v
  | .named k => cell S k σ

section
variable {S : XSet} {mlat mlt : Name} {rest : List Name} {hgt : Height} {base extra : List Name}

/-- What is needed of the arrays of the locations -/
structure Fits (S : XSet) (mlat mlt : Name) (hgt : Height) (l : Loc) (ds : List Name) : Prop where
  coords : l.coords = ds
  lat : l.lat.size = ds.map S.len
  lt : l.lt.size = ds.map S.len
  height : l.height.size = ds.map S.len ∨ l.height.size = [] ∧ ds = [S.index] ∧ ∃ v, hgt = .scalar v
  vals : ∀ σ : Name → ℕ, (∀ d ∈ ds, σ d < S.len d) → l.lat.val (ds.map σ) = cell S mlat σ ∧ l.lt.val (ds.map σ) = cell S mlt σ ∧
    (l.height.size = ds.map S.len → l.height.val (ds.map σ) = heightAt S hgt σ)

theorem locGrid_fits (hs : Sound S (mlat :: mlt :: rest)) (hl : Layout S mlat mlt (mlat :: mlt :: rest) hgt base extra) :
    ∃ l, locGrid S mlat mlt hgt = .ok l ∧ Fits S mlat mlt hgt l base ∧ ∀ v ix, hgt = .scalar v → l.height.val ix = v := by
  have hnamed := hl.named
  have hscal := hl.scalar
  have hb := hl.locs
  clear hl
  cases hb with
  | series v1 v2 d1 d2 =>
    obtain ⟨-, -, s1⟩ := hs.arr mlat (by simp)
    obtain ⟨-, -, s2⟩ := hs.arr mlt (by simp)
    rw [d1] at s1
    rw [d2] at s2
    have hsz : (hgt.arr S).size = [S.len S.index] ∨ (hgt.arr S).size = [] := by
      cases hgt with
      | scalar v => exact .inr rfl
      | named k => exact .inl (by rw [Height.arr, (hnamed k rfl).2]; rfl)
    refine ⟨⟨S.arr mlat, S.arr mlt, hgt.arr S, [S.index]⟩, ?_, ⟨rfl, s1, s2, ?_, ?_⟩, ?_⟩
    · rw [locGrid, if_neg]
      rw [s1, s2, ← hs.times]
      simp only [List.map_cons, List.map_nil, List.headD_cons, ne_eq, not_true_eq_false, false_or, not_and, not_not]
      intro h
      rcases hsz with h' | h'
      · exact absurd h' h
      · exact h'
    · cases hgt with
      | scalar v => exact .inr ⟨rfl, rfl, v, rfl⟩
      | named k => exact .inl (hnamed k rfl).2
    · intro σ _
      refine ⟨by rw [cell, d1], by rw [cell, d2], fun _ => ?_⟩
      cases hgt with
      | scalar v => rfl
      | named k =>
        rw [heightAt, cell, (hnamed k rfl).1]
        rfl
    · rintro v ix rfl
      rfl
  | grid E v1 v2 d1 d2 d3 d4 =>
    obtain ⟨c1, c2⟩ := hs.coord _ v1
    obtain ⟨-, -, s2⟩ := hs.arr mlt (by simp)
    have hown : (S.coords.filter fun c => c ∈ (S.arr mlat).dims ∧ c ∉ (S.arr mlt).dims) = [mlat] := by
      refine filter_one hs.nodup v1 _ fun x _ => ?_
      rw [c1]
      simp only [List.mem_singleton, decide_eq_true_eq]
      exact ⟨fun h => h.1, fun h => ⟨h, by rw [h]; exact d2⟩⟩
    have hlatl : (flat (S.arr mlat)).length = (S.arr mlat).size.prod := by rw [flat, List.length_map, indices_length]
    have hltl : (flat (S.arr mlt)).length = (S.arr mlt).size.prod := by rw [flat, List.length_map, indices_length]
    obtain ⟨lat', lt', g1, g2, g3, g4⟩ := C93_lat_lt (flat (S.arr mlat)) (flat (S.arr mlt)) (S.arr mlat).size (S.arr mlt).size
      hlatl hltl (by rw [c2]; simp)
    rw [c2] at g1 g2 g3
    have hcond : (S.arr mlat).size ≠ (S.arr mlt).size := by rw [c2, s2]; exact d4
    have hsize : (S.arr mlt).size ++ [S.len mlat] = ((S.arr mlt).dims ++ [mlat]).map S.len := by rw [s2, List.map_append]; rfl
    have hvals : ∀ σ : Name → ℕ, (∀ d ∈ (S.arr mlt).dims ++ [mlat], σ d < S.len d) →
        (ofFlat ((S.arr mlt).size ++ [S.len mlat]) lat').val (((S.arr mlt).dims ++ [mlat]).map σ) = cell S mlat σ ∧
        (ofFlat ((S.arr mlt).size ++ [S.len mlat]) lt').val (((S.arr mlt).dims ++ [mlat]).map σ) = cell S mlt σ := by
      intro σ hσ
      have m1 : (S.arr mlt).dims.map σ ∈ indices (S.arr mlt).size := by
        rw [s2]
        exact map_mem fun d hd => hσ d (by simp [hd])
      have m2 : [σ mlat] ∈ indices (S.arr mlat).size := by
        rw [c2]
        exact map_mem (ds := [mlat]) fun d hd => hσ d (by simpa using .inr (List.mem_singleton.1 hd))
      have hlen : (flat (S.arr mlat)).length = S.len mlat := by rw [hlatl, c2]; simp
      have hr : ravel [σ mlat] [S.len mlat] = σ mlat := by simp [ravel]
      have hpos : ravel (((S.arr mlt).dims ++ [mlat]).map σ) ((S.arr mlt).size ++ [S.len mlat]) =
          ravel ((S.arr mlt).dims.map σ) (S.arr mlt).size * S.len mlat + σ mlat := by
        rw [List.map_append, List.map_cons, List.map_nil, ravel_append (by rw [s2]; simp), hr]
        simp
      have := g4 (ravel ((S.arr mlt).dims.map σ) (S.arr mlt).size) (σ mlat) (by rw [hltl]; exact (ravel_get m1).1)
        (by rw [hlen]; exact hσ mlat (by simp))
      rw [hlen] at this
      have f1 := flat_get m2
      rw [c2, hr] at f1
      have f2 := flat_get m1
      rw [f1, f2] at this
      simp only [ofFlat]
      rw [hpos, List.getD_eq_getElem?_getD, List.getD_eq_getElem?_getD, this.1, this.2, cell, cell, c1]
      exact ⟨rfl, rfl⟩
    have hgridok : locGrid S mlat mlt hgt = locHeight S hgt (ofFlat ((S.arr mlt).size ++ [S.len mlat]) lat')
        (ofFlat ((S.arr mlt).size ++ [S.len mlat]) lt') ((S.arr mlt).dims ++ [mlat]) := by
      rw [locGrid, if_pos (.inl hcond)]
      simp only [hown, List.map_cons, List.map_nil, c2]
      rw [g1, d3]
      rfl
    cases hgt with
    | scalar v =>
      refine ⟨_, by rw [hgridok, locHeight], ⟨rfl, hsize, hsize, .inl hsize, fun σ hσ => ?_⟩, ?_⟩
      · exact ⟨(hvals σ hσ).1, (hvals σ hσ).2, fun _ => rfl⟩
      · intro w ix hw
        simp only [Height.scalar.injEq] at hw
        subst hw
        rfl
    | named k =>
      obtain ⟨k1, k2⟩ := hnamed k rfl
      refine ⟨⟨ofFlat ((S.arr mlt).size ++ [S.len mlat]) lat', ofFlat ((S.arr mlt).size ++ [S.len mlat]) lt', S.arr k,
        (S.arr mlt).dims ++ [mlat]⟩, ?_, ⟨rfl, hsize, hsize, .inl k2, fun σ hσ => ?_⟩, by simp⟩
      · rw [hgridok]
        simp only [locHeight]
        rw [if_pos (by rw [k2]; exact hsize.symm)]
      · refine ⟨(hvals σ hσ).1, (hvals σ hσ).2, fun _ => ?_⟩
        simp only [heightAt, cell]
        rw [k1]

theorem pad_prefix (a : Arr V) (t : List ℕ) : ∃ a', pad a (a.size ++ t) = .ok a' ∧ a'.size = a.size ++ t ∧
    ∀ ix ∈ indices (a.size ++ t), a'.val ix = a.val (ix.take a.size.length) := by
  refine ⟨_, by rw [pad, if_pos]; refine ⟨by simp, ?_⟩; generalize a.size = sz; induction sz with
    | nil => simp
    | cons n sz ih => simpa using ih, rfl, ?_⟩
  intro ix hix
  simp only
  rw [zipWith_clip ((mem_indices _ _).1 hix) a.size.length (by simp)]

theorem pad_scalar (v : V) (t : List ℕ) : pad (full [] v) t = .ok ⟨[], t, fun _ => v⟩ := by
  simp [pad, full]

theorem locs_fit (hs : Sound S (mlat :: mlt :: rest)) (hl : Layout S mlat mlt (mlat :: mlt :: rest) hgt base extra)
    (hn : (mlat :: mlt :: rest).Nodup) :
    ∃ l l', locGrid S mlat mlt hgt = .ok l ∧ widen S (datCoords S (mlat :: mlt :: rest)) l = .ok l' ∧
      Fits S mlat mlt hgt l' (base ++ extra) ∧ l'.height.size ≠ [] := by
  obtain ⟨l, h1, hf, hsc⟩ := locGrid_fits hs hl
  obtain ⟨e1, e2⟩ := datCoords_eq hs hl hn
  have hbase : base ≠ [] := by
    have hb := hl.locs
    cases hb <;> simp
  by_cases hx : extra = []
  · refine ⟨l, l, h1, ?_, ?_, ?_⟩
    · rw [widen, if_neg]
      rw [hf.coords, e2, hx]
      simp
    · rw [hx, List.append_nil]
      exact hf
    · rcases hf.height with h | ⟨-, h2, v, h3⟩
      · rw [h]
        simpa using hbase
      · exact absurd (by rw [hx, List.append_nil, h2]) (hl.scalar v h3)
  · obtain ⟨lat, a1, a2, a3⟩ := pad_prefix l.lat (extra.map S.len)
    obtain ⟨lt, b1, b2, b3⟩ := pad_prefix l.lt (extra.map S.len)
    have hheight : ∃ h, pad l.height (l.lat.size ++ extra.map S.len) = .ok h ∧ h.size = (base ++ extra).map S.len ∧
        ∀ σ : Name → ℕ, (∀ d ∈ base ++ extra, σ d < S.len d) → h.val ((base ++ extra).map σ) = heightAt S hgt σ := by
      rcases hf.height with hh | ⟨hh, -, v, rfl⟩
      · obtain ⟨h, c1, c2, c3⟩ := pad_prefix l.height (extra.map S.len)
        rw [hf.lat, ← hh]
        refine ⟨h, c1, by rw [c2, hh, List.map_append], fun σ hσ => ?_⟩
        rw [c3 _ (by rw [hh, ← List.map_append]; exact map_mem hσ), hh]
        rw [List.map_append, List.length_map, ← List.length_map (f := σ) (as := base), List.take_left]
        exact (hf.vals σ fun d hd => hσ d (by simp [hd])).2.2 hh
      · refine ⟨_, by rw [pad, if_pos]; rw [hh]; simp, by rw [hf.lat, List.map_append], fun σ hσ => ?_⟩
        exact hsc v _ rfl
    obtain ⟨h, c1, c2, c3⟩ := hheight
    refine ⟨l, ⟨lat, lt, h, base ++ extra⟩, h1, ?_, ⟨rfl, ?_, ?_, .inl c2, ?_⟩, ?_⟩
    · rw [widen, if_pos]
      · simp only [hf.coords]
        rw [e1]
        rw [hf.lt, ← hf.lat] at b1
        simp only [a1, b1, c1, bind, Except.bind, pure, Except.pure]
      · rw [hf.coords, e2]
        have := List.length_pos_iff.2 hx
        omega
    · rw [a2, hf.lat, List.map_append]
    · rw [b2, hf.lt, List.map_append]
    · intro σ hσ
      have hσ' : ∀ d ∈ base, σ d < S.len d := fun d hd => hσ d (by simp [hd])
      obtain ⟨x1, x2, -⟩ := hf.vals σ hσ'
      have hm := map_mem hσ
      refine ⟨?_, ?_, fun _ => c3 σ hσ⟩
      · simp only
        rw [a3 _ (by rw [hf.lat, ← List.map_append]; exact hm), hf.lat, List.map_append, List.length_map,
          ← List.length_map (f := σ) (as := base), List.take_left]
        exact x1
      · simp only
        rw [b3 _ (by rw [hf.lt, ← List.map_append]; exact hm), hf.lt, List.map_append, List.length_map,
          ← List.length_map (f := σ) (as := base), List.take_left]
        exact x2
    · simp only
      rw [c2]
      simp [hbase]

end

/-! ## The whole call -/

/-- The latitude is on the side asked for: north for 1, anywhere for -1 (see C95). -/
def Side (h : ℤ) (v : V) : Prop := v ≠ .nan ∧ (h = 1 → Fl.lt (.fin 0) v = true)

/-- The data at labels are used: the latitude is on the side asked for, a needed value is finite and none is infinite. -/
def Chosen (S : XSet) (mlat : Name) (need : List Name) (h : ℤ) (σ : Name → ℕ) : Prop :=
  Side h (cell S mlat σ) ∧ (∃ k ∈ need, k ∈ S.vars ∧ ∃ x, cell S k σ = .fin x) ∧ ∀ k ∈ need, k ∈ S.vars → cell S k σ ≠ .pinf

/-- The record is within the tolerance of the time with the given index. -/
def TimeClose (c : Cycler) (S : XSet) (tol : ℤ) (i : ℕ) (r : ℤ) : Prop :=
  ∃ ti tr, S.time[i]? = some ti ∧ At c.times r tr ∧ |ti - tr| ≤ tol

/-- Record `r` is at least as near to the time as record `k`. -/
def TimeNearer (c : Cycler) (S : XSet) (i : ℕ) (r k : ℤ) : Prop :=
  ∀ ti tr tk, S.time[i]? = some ti → At c.times r tr → At c.times k tk → |ti - tr| ≤ |ti - tk|

theorem signGe_iff {h : ℤ} (hh : h = 1 ∨ h = -1) (v : V) : signGe v h = true ↔ Side h v := by
  rcases hh with rfl | rfl
  · cases v with
    | nan => simp [signGe, Side]
    | ninf => simp [signGe, Side, Fl.lt]
    | pinf => simp [signGe, Side, Fl.lt]
    | fin x =>
      simp only [signGe, Side, Fl.lt, decide_eq_true_eq, sgn]
      split_ifs with h1 h2 <;> simp [h1]
  · cases v with
    | nan => simp [signGe, Side]
    | ninf => simp [signGe, Side]
    | pinf => simp [signGe, Side]
    | fin x =>
      simp only [signGe, Side, decide_eq_true_eq, sgn]
      split_ifs with h1 h2 <;> simp

theorem on_map {α : Type} (a : Arr α) {ds : List Name} (h : ∀ d ∈ a.dims, d ∈ ds) (σ : Name → ℕ) :
    on a ds (ds.map σ) = a.val (a.dims.map σ) := by
  rw [on]
  congr 1
  apply List.map_congr_left
  intro d hd
  have hj := List.idxOf_lt_length_of_mem (h d hd)
  rw [List.getD_eq_getElem?_getD, List.getElem?_map, List.getElem?_eq_getElem hj, List.getElem_idxOf]
  rfl

theorem isFin_iff (v : V) : isFin v = true ↔ ∃ x, v = .fin x := by
  cases v <;> simp [isFin]

section
variable {S : XSet} {mlat mlt : Name} {rest : List Name} {hgt : Height} {base extra : List Name}

theorem dims_sub (hs : Sound S (mlat :: mlt :: rest)) (hl : Layout S mlat mlt (mlat :: mlt :: rest) hgt base extra) {k : Name}
    (hk : k ∈ mlat :: mlt :: rest) : ∀ d ∈ (S.arr k).dims, d ∈ base ++ extra := fun d hd =>
  (mem_dims hs hl d).1 (List.mem_flatMap.2 ⟨k, hk, hd⟩)

end

/-- The mask is true for the data that are used. -/
theorem mask_iff {S : XSet} {mlat : Name} {need ds : List Name} (hd : maskDims S need mlat = ds)
    (hsub : ∀ k ∈ need, ∀ d ∈ (S.arr k).dims, d ∈ ds) (hm : mlat ∈ need) {h : ℤ} (hh : h = 1 ∨ h = -1) (σ : Name → ℕ) :
    (mask S need mlat h).val (ds.map σ) = true ↔ Chosen S mlat need h σ := by
  simp only [mask]
  rw [hd, rowMax, Ocb.Pysat.rowMax_aux, on_map _ (hsub mlat hm) σ]
  change _ ↔ Side h ((S.arr mlat).val ((S.arr mlat).dims.map σ)) ∧ _
  by_cases hside : signGe ((S.arr mlat).val ((S.arr mlat).dims.map σ)) h = true
  · have e : ((dataNames S need).map fun k =>
        if signGe ((S.arr mlat).val ((S.arr mlat).dims.map σ)) h = true then on (S.arr k) ds (ds.map σ)
        else .nan) = (dataNames S need).map fun k => cell S k σ := by
      apply List.map_congr_left
      intro k hk
      rw [if_pos hside, on_map _ (hsub k (List.mem_filter.1 hk).1) σ, cell]
    rw [e]
    simp only [ne_eq, reduceCtorEq, not_false_eq_true, true_and, exists_false, false_or, List.mem_map, not_exists,
      not_and, dataNames, List.mem_filter, decide_eq_true_eq, and_imp, exists_exists_and_eq_and, isFin_iff,
      (signGe_iff hh _).1 hside]
    constructor
    · rintro ⟨h1, k, ⟨k1, k2⟩, x, k3⟩
      exact ⟨⟨k, k1, k2, x, k3⟩, h1⟩
    · rintro ⟨⟨k, k1, k2, x, k3⟩, h1⟩
      exact ⟨h1, k, ⟨k1, k2⟩, x, k3⟩
  · have hns : ¬ Side h ((S.arr mlat).val ((S.arr mlat).dims.map σ)) := fun hc => hside ((signGe_iff hh _).2 hc)
    simp only [hns, false_and, iff_false, not_and, not_or, not_exists, if_neg hside]
    intro _ _
    refine ⟨by simp [isFin], fun v hv => ?_⟩
    obtain ⟨k, -, rfl⟩ := List.mem_map.1 hv
    simp [isFin]

theorem firsts_mem {m : Arr Bool} {t : ℕ} : t ∈ firsts m ↔ t < m.size.headD 0 ∧ ∃ ix ∈ indices m.size, m.val ix = true ∧ ix.headD 0 = t := by
  simp [firsts]

theorem firsts_sorted (m : Arr Bool) : (firsts m).Pairwise (· < ·) := List.Pairwise.filter _ List.pairwise_lt_range

theorem addNew_sub (l acc : List Name) :
    (∀ x ∈ acc, x ∈ l.foldl Ocb.Pysat.addNew acc) ∧ ∀ x ∈ l, x ∈ l.foldl Ocb.Pysat.addNew acc := by
  induction l generalizing acc with
  | nil => simp
  | cons a l ih =>
    have h1 : ∀ x ∈ acc, x ∈ Ocb.Pysat.addNew acc a := by
      intro x hx
      rw [Ocb.Pysat.addNew]
      split_ifs <;> simp [hx]
    have h2 : a ∈ Ocb.Pysat.addNew acc a := by
      rw [Ocb.Pysat.addNew]
      split_ifs with h <;> simp [h]
    refine ⟨fun x hx => (ih _).1 x (h1 x hx), fun x hx => ?_⟩
    rcases List.mem_cons.1 hx with rfl | hx
    · exact (ih _).1 _ h2
    · exact (ih _).2 x hx

theorem needOf_adds {vars : List Name} {es : List (Name × Arg)} {need r : List Name} (h : Ocb.Pysat.needOf vars es need = .ok r) :
    ∃ l : List Name, r = l.foldl Ocb.Pysat.addNew need := by
  induction es generalizing need with
  | nil =>
    rw [Ocb.Pysat.needOf, Except.ok.injEq] at h
    exact ⟨[], h.symm⟩
  | cons k es ih =>
    obtain ⟨k, v⟩ := k
    rw [Ocb.Pysat.needOf.eq_def] at h
    simp only at h
    split_ifs at h
    · split at h
      · rename_i t
        split_ifs at h
        obtain ⟨l, hl⟩ := ih h
        exact ⟨t :: l, hl⟩
      · simp at h
    · exact ih h

theorem vectLoop_adds {vars : List Name} {vs : List (Name × List (Name × Arg))} {q p : Plan} (h : Ocb.Pysat.vectLoop vars vs q = .ok p) :
    (∃ l : List Name, p.need = l.foldl Ocb.Pysat.addNew q.need) ∧ List.Sublist p.evars q.evars ∧ List.Sublist p.curls q.curls := by
  induction vs generalizing q with
  | nil =>
    rw [Ocb.Pysat.vectLoop, Except.ok.injEq] at h
    subst h
    exact ⟨⟨[], rfl⟩, List.Sublist.refl _, List.Sublist.refl _⟩
  | cons v vs ih =>
    obtain ⟨e, entries⟩ := v
    simp only [Ocb.Pysat.vectLoop, bind, Except.bind] at h
    split at h
    · simp at h
    rename_i q' hq
    split at h
    · simp at h
    rename_i need hneed
    obtain ⟨⟨l, hl⟩, h1, h2⟩ := ih h
    obtain ⟨l', hl'⟩ := needOf_adds hneed
    refine ⟨⟨l' ++ l, by rw [hl, hl', List.foldl_append]⟩, h1.trans ?_, h2.trans ?_⟩ <;>
    · rw [Ocb.Pysat.setScale] at hq
      split_ifs at hq <;> simp only [Except.ok.injEq] at hq <;> subst hq <;>
        first | exact List.Sublist.refl _ | exact List.erase_sublist

/-- The names needed: latitude and local time first, and none twice. -/
theorem need_eq {vars : List Name} {n : Names} {p : Plan} (hp : plan vars n = .ok p) (hne : n.mlat ≠ n.mlt) :
    ∃ rest, p.need = n.mlat :: n.mlt :: rest ∧ p.need.Nodup := by
  have key : ∀ (l : List Name) (rest : List Name), (n.mlat :: n.mlt :: rest).Nodup →
      ∃ rest', l.foldl Ocb.Pysat.addNew (n.mlat :: n.mlt :: rest) = n.mlat :: n.mlt :: rest' ∧ (n.mlat :: n.mlt :: rest').Nodup := by
    intro l
    induction l with
    | nil => exact fun rest h => ⟨rest, rfl, h⟩
    | cons a l ih =>
      intro rest h
      rw [List.foldl_cons, Ocb.Pysat.addNew]
      split_ifs with ha
      · exact ih rest h
      · refine ih (rest ++ [a]) ?_
        have : (n.mlat :: n.mlt :: (rest ++ [a])) = (n.mlat :: n.mlt :: rest) ++ [a] := rfl
        rw [this, List.nodup_append]
        refine ⟨h, by simp, fun x hx y hy => ?_⟩
        rw [List.mem_singleton.1 hy]
        rintro rfl
        exact ha hx
  rw [plan] at hp
  simp only [bind, Except.bind] at hp
  split at hp
  · simp at hp
  obtain ⟨⟨l, hl⟩, -, -⟩ := vectLoop_adds hp
  obtain ⟨rest, h1, h2⟩ := key ((n.evars ++ n.curls).filter (· ∈ vars) ++ l) [] (by simpa using hne)
  have e : p.need = n.mlat :: n.mlt :: rest := by
    rw [hl, ← h1, List.foldl_append]
    rfl
  exact ⟨rest, e, by rw [e]; exact h2⟩

/-- Variables that are scaled on their own are needed. -/
theorem need_mem {vars : List Name} {n : Names} {p : Plan} (hp : plan vars n = .ok p) {e : Name}
    (he : e ∈ p.evars ++ p.curls) (hm : e ∈ vars) : e ∈ p.need := by
  rw [plan] at hp
  simp only [bind, Except.bind] at hp
  split at hp
  · simp at hp
  obtain ⟨⟨l, hl⟩, h1, h2⟩ := vectLoop_adds hp
  have hen : e ∈ n.evars ++ n.curls := by
    rcases List.mem_append.1 he with he | he
    · exact List.mem_append_left _ (h1.subset he)
    · exact List.mem_append_right _ (h2.subset he)
  rw [hl]
  refine (addNew_sub _ _).1 e ?_
  exact (addNew_sub _ _).2 e (List.mem_filter.2 ⟨hen, by simpa using hm⟩)

/-- Without vectors the lists stay as they are. -/
theorem plan_lists {vars : List Name} {n : Names} {p : Plan} (hp : plan vars n = .ok p) (hv : n.vects = []) :
    p.evars = n.evars ∧ p.curls = n.curls ∧ p.vects = [] := by
  rw [plan, hv] at hp
  simp only [bind, Except.bind, Ocb.Pysat.vectLoop] at hp
  split at hp
  · simp at hp
  simp only [Except.ok.injEq] at hp
  subst hp
  exact ⟨rfl, rfl, rfl⟩

theorem writes_eq (n : Names) (p : Plan) (b : Name) : writes n p b = Ocb.Pysat.written n p b := by
  simp only [writes, Ocb.Pysat.written, vectPairs, List.map_flatMap, List.map_map]
  rfl

theorem written_ne {n : Names} {p : Plan} {b : Name} (h : (Ocb.Pysat.written n p b).Nodup) : n.mlat ≠ n.mlt := by
  intro e
  rw [Ocb.Pysat.written, e] at h
  simp at h

theorem under_inj {a a' b : Name} (h : under a b = under a' b) : a = a' := by
  simpa [under] using h

variable {c : Cycler} {good : ℤ → Prop}

theorem timesAt_ok {S : XSet} {u : List ℕ} (h : ∀ t ∈ u, t < S.time.length) : timesAt S u = .ok (u.map fun t => S.time.getD t 0) := by
  induction u with
  | nil => rfl
  | cons a u ih =>
    have ha := h a (by simp)
    have := ih fun t ht => h t (by simp [ht])
    rw [timesAt] at this ⊢
    simp [mapE, this, List.getElem?_eq_getElem ha, bind, Except.bind, pure, Except.pure]

theorem base_head {S : XSet} {mlat mlt : Name} {base : List Name} (hb : Base S mlat mlt base) : ∃ tl, base = S.index :: tl := by
  cases hb with
  | series _ _ _ _ => exact ⟨[], rfl⟩
  | grid r _ _ h _ _ _ => exact ⟨r ++ [mlat], by rw [h]; rfl⟩

theorem times_at {S : XSet} {t : ℕ} (h : t < S.time.length) : S.time[t]? = some (S.time.getD t 0) := by
  rw [List.getD_eq_getElem?_getD, List.getElem?_eq_getElem h]
  rfl

/-- What the loop needs of the set: the dimensions of the mask, and locations with these dimensions. -/
structure Ready (S : XSet) (n : Names) (p : Plan) (hgt : Height) (l' : Loc) (ds : List Name) : Prop where
  head : ∃ tl, ds = S.index :: tl
  mask : maskDims S p.need n.mlat = ds
  sub : ∀ k ∈ p.need, ∀ d ∈ (S.arr k).dims, d ∈ ds
  lat : n.mlat ∈ p.need
  times : S.len S.index = S.time.length
  loc : ∃ l, locGrid S n.mlat n.mlt hgt = .ok l ∧ widen S (datCoords S p.need) l = .ok l'
  coords : l'.coords = ds
  size : l'.lat.size = ds.map S.len
  dat : (datCoords S p.need).length = ds.length

section
variable {S : XSet} {n : Names} {p : Plan} {hgt : Height} {l' : Loc} {ds : List Name}

theorem Ready.msize (hr : Ready S n p hgt l' ds) (h : ℤ) : (Ocb.XData.mask S p.need n.mlat h).size = ds.map S.len := by
  simp only [Ocb.XData.mask]
  rw [hr.mask]

theorem Ready.hd (hr : Ready S n p hgt l' ds) : (ds.map S.len).headD 0 = S.time.length := by
  obtain ⟨tl, rfl⟩ := hr.head
  simp [hr.times]

theorem Ready.first (hr : Ready S n p hgt l' ds) {h : ℤ} : ∀ t ∈ firsts (Ocb.XData.mask S p.need n.mlat h), t < S.time.length := by
  intro t ht
  have := (firsts_mem.1 ht).1
  rw [hr.msize, hr.hd] at this
  exact this

theorem Ready.fit (hr : Ready S n p hgt l' ds) (b : Name) (h : ℤ) (lc vc : Name) : Match ⟨S, n, p, b, h, l', lc, vc⟩ := by
  constructor
  · change (Ocb.XData.mask S p.need n.mlat h).size = l'.lat.size
    rw [hr.msize, hr.size]
  · intro hc
    change ¬ 1 < (datCoords S p.need).length at hc
    change l'.lat.size.length = 1
    rw [hr.size]
    rw [hr.dat] at hc
    obtain ⟨tl, rfl⟩ := hr.head
    simp only [List.length_map, List.length_cons] at hc ⊢
    omega

/-- The labels of a used cell give a cell that is done. -/
theorem Ready.mem (hr : Ready S n p hgt l' ds) {h : ℤ} (hh : h = 1 ∨ h = -1) {σ : Name → ℕ} (hσ : ∀ d ∈ ds, σ d < S.len d) (t : ℕ) :
    ds.map σ ∈ cellsAt (Ocb.XData.mask S p.need n.mlat h) t ↔ Chosen S n.mlat p.need h σ ∧ σ S.index = t := by
  rw [cells_mem, hr.msize, mask_iff hr.mask hr.sub hr.lat hh]
  obtain ⟨tl, rfl⟩ := hr.head
  exact ⟨fun h => h.2, fun h => ⟨map_mem hσ, h⟩⟩

theorem Ready.sorted (hr : Ready S n p hgt l' ds) {h : ℤ} (hT : S.time.Pairwise (· ≤ ·)) :
    ((firsts (Ocb.XData.mask S p.need n.mlat h)).map fun t => S.time.getD t 0).Pairwise (· ≤ ·) := by
  rw [List.pairwise_map]
  refine (firsts_sorted _).imp_of_mem fun {x y} hx hy hxy => ?_
  have h1 := hr.first x hx
  have h2 := hr.first y hy
  rw [List.getD_eq_getElem?_getD, List.getD_eq_getElem?_getD, List.getElem?_eq_getElem h1, List.getElem?_eq_getElem h2]
  exact List.pairwise_iff_getElem.1 hT _ _ h1 h2 hxy

end

/-- The call: for each cell the record that fills it. -/
theorem addX_spec (L : Lib) (hb : IsBoundary c good) (rec : ℤ) (h0 : -1 ≤ rec) (tol : ℤ) (htol : 0 ≤ tol) {S : XSet} {n : Names}
    {hgt : Height} {h : ℤ} (hh : h = 1 ∨ h = -1) {b : Name} {p : Plan} {ds : List Name} {l' : Loc}
    (hp : plan (S.vars ++ S.coords) n = .ok p) (hr : Ready S n p hgt l' ds)
    (hk : (Ocb.Pysat.written n p b).Nodup) {lc vc : Name} {out : Name → Arr V}
    (ho : addX L c rec tol S n hgt lc vc h b = .ok (some out)) :
    ∃ o, (∀ k, out k = ⟨ds, ds.map S.len, o k⟩) ∧
      ∀ σ : Name → ℕ, (∀ d ∈ ds, σ d < S.len d) →
        (∃ r, Chosen S n.mlat p.need h σ ∧ Cand good rec r ∧ TimeClose c S tol (σ S.index) r ∧
          Done L ⟨S, n, p, b, h, l', lc, vc⟩ o (σ S.index) r ∧
          (S.time.Pairwise (· ≤ ·) → StrictOn c.times (Cand good rec) →
            ∀ k, Cand good rec k → TimeNearer c S (σ S.index) r k)) ∨
        ((∀ k, o k (ds.map σ) = .nan) ∧
          (S.time.Pairwise (· ≤ ·) → NondecOn c.times (Cand good rec) → Chosen S n.mlat p.need h σ →
            ∀ k, Cand good rec k → ¬ TimeClose c S tol (σ S.index) k)) := by
  obtain ⟨l, f1, f2⟩ := hr.loc
  have hmem := fun (σ : Name → ℕ) (hσ : ∀ d ∈ ds, σ d < S.len d) t => hr.mem hh hσ t
  have hfl := hr.first (h := h)
  have hmatch := hr.fit b h lc vc
  have hsorted := hr.sorted (h := h)
  have hsize := hr.msize h
  set m := mask S p.need n.mlat h with hm
  simp only [addX, hp, bind, Except.bind, pure, Except.pure, f1, f2, ← hm, timesAt_ok hfl] at ho
  split_ifs at ho
  · simp at ho
  split at ho
  · simp at ho
  rename_i pairs hpairs
  split at ho
  · simp at ho
  rename_i o hdo
  split at ho
  · simp at ho
  rename_i out' hout
  simp only [Except.ok.injEq, Option.some.injEq] at ho
  subst ho
  have hout2 : ∀ k, out' k = ⟨ds, ds.map S.len, o k⟩ := by
    rw [assign, hr.coords, hr.size, if_pos rfl, Except.ok.injEq] at hout
    intro k
    rw [← hout]
  set E : Env := ⟨S, n, p, b, h, l', lc, vc⟩ with hE
  have hkeys : (keys E).Nodup := by
    rw [keys, writes_eq]
    exact hk
  obtain ⟨q1, q2⟩ := C18_drive_pairs hb _ tol htol rec h0 pairs hpairs
  have hlt : ∀ q ∈ pairs, q.1 < (firsts m).length := by
    intro q hq
    obtain ⟨⟨d, _, hd, -, -⟩, -⟩ := q2 q hq
    have := (List.getElem?_eq_some_iff.1 hd).1
    simpa using this
  have hget : ∀ q ∈ pairs, ∀ d, ((firsts m).map fun t => S.time.getD t 0)[q.1]? = some d →
      S.time[(firsts m).getD q.1 0]? = some d := by
    intro q hq d hd
    rw [List.getElem?_map, List.getElem?_eq_getElem (hlt q hq)] at hd
    rw [List.getD_eq_getElem?_getD, List.getElem?_eq_getElem (hlt q hq), Option.getD_some,
      times_at (hfl _ (List.getElem_mem _))]
    exact hd
  obtain ⟨r1, r2⟩ := doTimes_spec hmatch hkeys hdo (Ocb.Pysat.pairs_nodup (firsts_sorted m) q1 hlt)
  refine ⟨o, hout2, fun σ hσ => ?_⟩
  by_cases hi : Chosen S n.mlat p.need h σ ∧ ∃ q ∈ pairs, (firsts m).getD q.1 0 = σ S.index
  · obtain ⟨hc, q, hq, hqi⟩ := hi
    left
    have hdone := r1 ((firsts m).getD q.1 0, q.2) (List.mem_map.2 ⟨q, hq, rfl⟩)
    rw [← hqi]
    refine ⟨q.2, hc, (q2 q hq).2, ?_, hdone, ?_⟩
    · obtain ⟨d, tr, hd, htr, hcl⟩ := (q2 q hq).1
      exact ⟨d, tr, hget q hq d hd, htr, by rw [abs_sub_comm]; exact hcl⟩
    · intro hT hS k hkc ti tr tk hti htr htk
      obtain ⟨d, _, hd, -, -⟩ := (q2 q hq).1
      have e := hget q hq d hd
      rw [e, Option.some.injEq] at hti
      subst hti
      have := C18_drive_nearest hb _ tol htol rec h0 (hsorted hT) hS pairs hpairs q hq k hkc d tr tk hd htr htk
      rw [abs_sub_comm, abs_sub_comm d]
      exact this
  · right
    constructor
    · intro k
      rw [r2 k _ ?_]
      intro q hq hcell
      obtain ⟨q', hq', rfl⟩ := List.mem_map.1 hq
      obtain ⟨c2, c3⟩ := (hmem σ hσ _).1 hcell
      exact hi ⟨c2, q', hq', c3.symm⟩
    · rintro hT hN hc k hkc ⟨ti, tr, t1, t2, t3⟩
      have hu : σ S.index ∈ firsts m := by
        obtain ⟨i1, i2, i3⟩ := cells_mem.1 ((hmem σ hσ _).2 ⟨hc, rfl⟩)
        refine firsts_mem.2 ⟨?_, _, i1, i2, i3⟩
        rw [hsize, hr.hd]
        exact (List.getElem?_eq_some_iff.1 t1).1
      obtain ⟨j, hj⟩ := List.mem_iff_getElem?.1 hu
      have hclose : Close c ((firsts m).map fun t => S.time.getD t 0) tol j k := by
        refine ⟨ti, tr, ?_, t2, by rwa [abs_sub_comm]⟩
        rw [List.getElem?_map, hj, Option.map_some, List.getD_eq_getElem?_getD, t1]
        rfl
      obtain ⟨q, hq, rfl⟩ := (C18_drive_complete hb _ tol htol rec h0 (hsorted hT) hN pairs hpairs j).2 ⟨k, hkc, hclose⟩
      refine hi ⟨hc, q, hq, ?_⟩
      rw [List.getD_eq_getElem?_getD, hj]
      rfl

/-- Sets with a layout are ready. -/
theorem ready {S : XSet} {n : Names} {hgt : Height} {p : Plan} {base extra : List Name}
    (hp : plan (S.vars ++ S.coords) n = .ok p) (hs : Sound S p.need)
    (hl : Layout S n.mlat n.mlt p.need hgt base extra) (hne : n.mlat ≠ n.mlt) :
    ∃ l', Ready S n p hgt l' (base ++ extra) ∧ Fits S n.mlat n.mlt hgt l' (base ++ extra) ∧ l'.height.size ≠ [] := by
  obtain ⟨rest, e1, e2⟩ := need_eq hp hne
  have hs' := hs
  have hl' := hl
  have e2' := e2
  rw [e1] at hs' hl' e2'
  obtain ⟨l, l', f1, f2, f3, f4⟩ := locs_fit hs' hl' e2'
  obtain ⟨dc1, dc2⟩ := datCoords_eq hs' hl' e2'
  have hmd := maskDims_eq hs' hl'
  rw [← e1] at f2 dc1 dc2 hmd
  obtain ⟨tl, etl⟩ := base_head hl.locs
  refine ⟨l', ⟨⟨tl ++ extra, by rw [etl]; rfl⟩, hmd, fun k hk => ?_, by rw [e1]; simp, hs.times, ⟨l, f1, f2⟩, f3.coords, f3.lat,
    by rw [dc2, List.length_append]⟩, f3, f4⟩
  rw [e1] at hk
  exact dims_sub hs' hl' hk

/-! ## Theorems -/

/-- C210: for a time series of locations, or latitudes along their own dimension, the new variables have the dimensions of
the locations and of the data.  Each of their cells, found by its labels, either is one of a selected value and holds what
a usable record within the tolerance gives for the location with these labels; or is NaN.  For times and records in
order, the record is a nearest one, and a selected cell is NaN only if no usable record is within the tolerance.  What is
missing: other layouts, for which the statement fails (`C210_square_refuted`, `C210_both_refuted`,
`C210_coords_refuted`). -/
theorem C210_cells_partial (L : Lib) (hb : IsBoundary c good) (rec : ℤ) (h0 : -1 ≤ rec) (tol : ℤ) (htol : 0 ≤ tol) (S : XSet)
    (n : Names) (hgt : Height) (lc vc : Name) (h : ℤ) (hh : h = 1 ∨ h = -1) (b : Name) (p : Plan) (base extra : List Name)
    (hp : plan (S.vars ++ S.coords) n = .ok p) (hs : Sound S p.need)
    (hl : Layout S n.mlat n.mlt p.need hgt base extra)
    (hk : (Ocb.Pysat.written n p b).Nodup) (out : Name → Arr V)
    (ho : addX L c rec tol S n hgt lc vc h b = .ok (some out)) :
    (∀ k, (out k).dims = base ++ extra ∧ (out k).size = (base ++ extra).map S.len) ∧
      ∀ σ : Name → ℕ, (∀ d ∈ base ++ extra, σ d < S.len d) →
        (∃ r v, Chosen S n.mlat p.need h σ ∧ Cand good rec r ∧ TimeClose c S tol (σ S.index) r ∧
          L.norm r (cell S n.mlat σ) (cell S n.mlt σ) (heightAt S hgt σ) = .ok v ∧
          (out (under n.mlat b)).val ((base ++ extra).map σ) = v.1 ∧
          (out (under n.mlt b)).val ((base ++ extra).map σ) = v.2.1 ∧
          (out (under "r_corr".toList b)).val ((base ++ extra).map σ) = v.2.2 ∧
          (S.time.Pairwise (· ≤ ·) → StrictOn c.times (Cand good rec) →
            ∀ k, Cand good rec k → TimeNearer c S (σ S.index) r k)) ∨
        ((∀ k, (out k).val ((base ++ extra).map σ) = .nan) ∧
          (S.time.Pairwise (· ≤ ·) → NondecOn c.times (Cand good rec) → Chosen S n.mlat p.need h σ →
            ∀ k, Cand good rec k → ¬ TimeClose c S tol (σ S.index) k)) := by
  have hne := written_ne hk
  obtain ⟨l', hr, f3, f4⟩ := ready hp hs hl hne
  obtain ⟨o, hout, hcell⟩ := addX_spec L hb rec h0 tol htol hh hp hr hk ho
  refine ⟨fun k => by rw [hout]; exact ⟨rfl, rfl⟩, fun σ hσ => ?_⟩
  rcases hcell σ hσ with ⟨r, a1, a2, a3, a4, a5⟩ | ⟨a1, a2⟩
  · left
    obtain ⟨v, v1, v2, v3, v4⟩ := a4.1 _ ((hr.mem hh hσ _).2 ⟨a1, rfl⟩)
    obtain ⟨w1, w2, w3⟩ := f3.vals σ hσ
    have hsz : l'.height.size = (base ++ extra).map S.len := by
      rcases f3.height with hz | ⟨hz, -⟩
      · exact hz
      · exact absurd hz f4
    rw [w1, w2, w3 hsz] at v1
    exact ⟨r, v, a1, a2, a3, v1, by rw [hout]; exact v2, by rw [hout]; exact v3, by rw [hout]; exact v4, a5⟩
  · exact .inr ⟨fun k => by rw [hout]; exact a1 k, a2⟩

theorem foldl_sub {us : List (List Name)} {acc : List Name} (h : ∀ u ∈ us, ∀ d ∈ u, d ∈ acc) :
    us.foldl (fun acc ds => acc ++ ds.filter (· ∉ acc)) acc = acc := by
  induction us with
  | nil => rfl
  | cons u us ih =>
    rw [List.foldl_cons, List.filter_eq_nil_iff.2, List.append_nil]
    · exact ih fun v hv => h v (by simp [hv])
    · intro d hd
      simpa using h u (by simp) d hd

/-- Latitudes along their own dimension, as many as times: the locations are ready, but with wrong latitudes. -/
theorem square_ready {S : XSet} {n : Names} {p : Plan} (v0 : V)
    (hp : plan (S.vars ++ S.coords) n = .ok p) (hs : Sound S p.need) (hlat : n.mlat ∈ S.coords)
    (hlt : n.mlt ∈ S.vars) (hd : (S.arr n.mlt).dims = [S.index]) (hx : n.mlat ≠ S.index) (hlen : S.len n.mlat = S.time.length)
    (hnames : ∀ k ∈ p.need, k ∈ S.vars ∨ k = n.mlat) (hdims : ∀ k ∈ p.need, ∀ d ∈ (S.arr k).dims, d = S.index ∨ d = n.mlat) :
    ∃ l', Ready S n p (.scalar v0) l' [S.index, n.mlat] ∧ l'.height.size ≠ [] ∧
      ∀ t x, t < S.time.length → l'.lat.val [t, x] = (S.arr n.mlat).val [t] ∧ l'.lt.val [t, x] = (S.arr n.mlt).val [t] ∧
        l'.height.val [t, x] = v0 := by
  have hne : n.mlat ≠ n.mlt := fun e => hs.apart _ hlat (e ▸ hlt)
  obtain ⟨rest, e1, e2⟩ := need_eq hp hne
  obtain ⟨c1, c2⟩ := hs.coord _ hlat
  obtain ⟨-, -, s2⟩ := hs.arr n.mlt (by rw [e1]; simp)
  rw [hd] at s2
  have hix : S.index ∉ p.need := by
    intro h
    rcases hnames _ h with h | h
    · exact hs.apart _ hs.index h
    · exact hx h.symm
  have hdc : datCoords S p.need = [n.mlat, S.index] := by
    rw [datCoords, filter_one (a := n.mlat) e2 (by rw [e1]; simp), filter_one (a := S.index) hs.nodup hs.index]
    · rfl
    · intro d hdc
      simp only [decide_eq_true_eq]
      constructor
      · rintro ⟨h1, h2⟩
        obtain ⟨k, k1, k2⟩ := List.mem_flatMap.1 h1
        rcases hdims k k1 d k2 with h | rfl
        · exact h
        · exact absurd (by rw [e1]; simp) h2
      · rintro rfl
        exact ⟨List.mem_flatMap.2 ⟨n.mlt, by rw [e1]; simp, by rw [hd]; simp⟩, hix⟩
    · intro k hk
      simp only [decide_eq_true_eq]
      constructor
      · intro h
        rcases hnames k hk with h' | h'
        · exact absurd h' (hs.apart _ h)
        · exact h'
      · rintro rfl
        exact hlat
  have hmd : maskDims S p.need n.mlat = [S.index, n.mlat] := by
    have : dataNames S p.need = n.mlt :: rest.filter (· ∈ S.vars) := by
      rw [e1, dataNames, List.filter_cons_of_neg, List.filter_cons_of_pos]
      · simpa using hlt
      · simpa using hs.apart _ hlat
    rw [maskDims, this, List.map_cons, unify, List.foldl_cons, foldl_sub]
    · simp [hd, c1, unify_two, hx]
    · intro u hu d hdu
      obtain ⟨k, hk, rfl⟩ := List.mem_map.1 hu
      have hk' : k ∈ p.need := by
        rw [e1]
        simp [(List.mem_filter.1 hk).1]
      rw [unify_two, c1] at hdu
      have : d = S.index ∨ d = n.mlat := by
        rcases List.mem_append.1 hdu with h | h
        · exact hdims k hk' d h
        · exact .inr (by simpa using (List.mem_filter.1 h).1)
      rcases this with rfl | rfl <;> simp [hd, c1, unify_two, hx]
  have hloc : locGrid S n.mlat n.mlt (.scalar v0) = .ok ⟨S.arr n.mlat, S.arr n.mlt, full [] v0, [S.index]⟩ := by
    rw [locGrid, if_neg]
    · rfl
    · simp [c2, s2, hlen, hs.times, Height.arr, full]
  have hpad : ∀ a : Arr V, a.size = [S.time.length] → pad a ([S.time.length] ++ [S.time.length]) =
      .ok ⟨a.dims, [S.time.length] ++ [S.time.length], fun ix => a.val (List.zipWith (fun n i => if n = 1 then 0 else i) a.size ix)⟩ := by
    intro a ha
    rw [pad, if_pos]
    simp [ha]
  rw [hlen] at c2
  simp only [List.map_cons, List.map_nil, hs.times] at s2
  refine ⟨⟨⟨(S.arr n.mlat).dims, [S.time.length] ++ [S.time.length],
        fun ix => (S.arr n.mlat).val (List.zipWith (fun n i => if n = 1 then 0 else i) (S.arr n.mlat).size ix)⟩,
      ⟨(S.arr n.mlt).dims, [S.time.length] ++ [S.time.length],
        fun ix => (S.arr n.mlt).val (List.zipWith (fun n i => if n = 1 then 0 else i) (S.arr n.mlt).size ix)⟩,
      ⟨[], [S.time.length] ++ [S.time.length], fun _ => v0⟩, [S.index, n.mlat]⟩, ⟨⟨_, rfl⟩, hmd, fun k hk d hdk => by simpa using hdims k hk d hdk, by rw [e1]; simp, hs.times,
    ⟨_, hloc, ?_⟩, ?_, ?_, by rw [hdc]; rfl⟩, ?_, ?_⟩
  · rw [widen, if_pos (by rw [hdc]; simp), hdc]
    have : [n.mlat, S.index].filter (· ∉ [S.index]) = [n.mlat] := by simp [hx]
    simp only [this, c2, List.map_cons, List.map_nil, hlen, hpad _ c2, hpad _ s2, bind, Except.bind]
    rw [pad, if_pos (by simp [full])]
    rfl
  · rfl
  · simp [hlen, hs.times]
  · simp
  · intro t x ht
    have : (if S.time.length = 1 then 0 else t) = t := by
      split_ifs <;> omega
    simp only [c2, s2, List.zipWith_cons_cons, List.zipWith_nil_left, this]
    exact ⟨trivial, trivial, trivial⟩

/-- C210 fails for latitudes along their own dimension that are as many as the times: a filled cell holds what the record
gives for the latitude whose number is that of the time, not for the latitude of the cell. -/
theorem C210_square_refuted (L : Lib) (hb : IsBoundary c good) (rec : ℤ) (h0 : -1 ≤ rec) (tol : ℤ) (htol : 0 ≤ tol) (S : XSet)
    (n : Names) (v0 : V) (lc vc : Name) (h : ℤ) (hh : h = 1 ∨ h = -1) (b : Name) (p : Plan)
    (hp : plan (S.vars ++ S.coords) n = .ok p) (hs : Sound S p.need) (hlat : n.mlat ∈ S.coords)
    (hlt : n.mlt ∈ S.vars) (hd : (S.arr n.mlt).dims = [S.index]) (hx : n.mlat ≠ S.index) (hlen : S.len n.mlat = S.time.length)
    (hnames : ∀ k ∈ p.need, k ∈ S.vars ∨ k = n.mlat) (hdims : ∀ k ∈ p.need, ∀ d ∈ (S.arr k).dims, d = S.index ∨ d = n.mlat)
    (hk : (Ocb.Pysat.written n p b).Nodup) (out : Name → Arr V)
    (ho : addX L c rec tol S n (.scalar v0) lc vc h b = .ok (some out)) (σ : Name → ℕ) (h1 : σ S.index < S.time.length)
    (h2 : σ n.mlat < S.time.length) :
    (∃ r v, Chosen S n.mlat p.need h σ ∧ Cand good rec r ∧ TimeClose c S tol (σ S.index) r ∧
      L.norm r (cell S n.mlat fun _ => σ S.index) (cell S n.mlt σ) v0 = .ok v ∧
      (out (under n.mlat b)).val [σ S.index, σ n.mlat] = v.1 ∧ (out (under n.mlt b)).val [σ S.index, σ n.mlat] = v.2.1) ∨
    ((∀ k, (out k).val [σ S.index, σ n.mlat] = .nan) ∧
      (S.time.Pairwise (· ≤ ·) → NondecOn c.times (Cand good rec) → Chosen S n.mlat p.need h σ →
        ∀ k, Cand good rec k → ¬ TimeClose c S tol (σ S.index) k)) := by
  obtain ⟨l', hr, -, hvals⟩ := square_ready v0 hp hs hlat hlt hd hx hlen hnames hdims
  obtain ⟨o, hout, hcell⟩ := addX_spec L hb rec h0 tol htol hh hp hr hk ho
  have hσ : ∀ d ∈ [S.index, n.mlat], σ d < S.len d := by
    intro d hd
    rcases List.mem_cons.1 hd with rfl | hd
    · rw [hs.times]
      exact h1
    · rw [List.mem_singleton.1 hd, hlen]
      exact h2
  rcases hcell σ hσ with ⟨r, a1, a2, a3, a4, a5⟩ | ⟨a1, a2⟩
  · left
    obtain ⟨v, v1, v2, v3, v4⟩ := a4.1 _ ((hr.mem hh hσ _).2 ⟨a1, rfl⟩)
    obtain ⟨w1, w2, w3⟩ := hvals (σ S.index) (σ n.mlat) h1
    refine ⟨r, v, a1, a2, a3, ?_, by rw [hout]; exact v2, by rw [hout]; exact v3⟩
    simp only [List.map_cons, List.map_nil, w1, w2, w3] at v1
    rw [cell, cell, hd, (hs.coord _ hlat).1]
    exact v1
  · exact .inr ⟨fun k => by rw [hout]; exact a1 k, a2⟩

/-- C210 fails when latitude and local time both depend on the time and one more dimension: no call gives a result. -/
theorem C210_both_refuted (L : Lib) (rec tol : ℤ) (S : XSet) (n : Names) (hgt : Height) (lc vc : Name) (h : ℤ) (b : Name) (p : Plan)
    (hp : plan (S.vars ++ S.coords) n = .ok p) (hs : Sound S p.need) (hne : n.mlat ≠ n.mlt) (x : Name)
    (hx : x ≠ S.index) (h1 : (S.arr n.mlat).dims = [S.index, x]) (h2 : (S.arr n.mlt).dims = [S.index, x])
    (hz : (hgt.arr S).size = [] ∨ (hgt.arr S).size = [S.len S.index, S.len x]) (out : Name → Arr V) :
    addX L c rec tol S n hgt lc vc h b ≠ .ok (some out) := by
  intro ho
  obtain ⟨rest, e1, e2⟩ := need_eq hp hne
  obtain ⟨-, hxc, s1⟩ := hs.arr n.mlat (by rw [e1]; simp)
  obtain ⟨-, -, s2⟩ := hs.arr n.mlt (by rw [e1]; simp)
  rw [h1] at s1 hxc
  rw [h2] at s2
  have hloc : locGrid S n.mlat n.mlt hgt = .ok ⟨S.arr n.mlat, S.arr n.mlt, hgt.arr S, [S.index]⟩ := by
    rw [locGrid, if_neg]
    rcases hz with hz | hz <;> simp [s1, s2, hs.times, hz]
  simp only [addX, hp, bind, Except.bind, pure, Except.pure, hloc] at ho
  split_ifs at ho
  · simp at ho
  split at ho
  · simp at ho
  rename_i l' hl'
  split at ho
  · simp at ho
  split at ho
  · simp at ho
  split at ho
  · simp at ho
  split at ho
  · simp at ho
  rename_i out' hout
  have hcount : ¬ l'.coords.map S.len = l'.lat.size := by
    have : l'.coords.length < l'.lat.size.length := by
      rw [widen] at hl'
      split_ifs at hl'
      · simp only [bind, Except.bind, pure, Except.pure] at hl'
        split at hl'
        · simp at hl'
        rename_i a ha
        split at hl'
        · simp at hl'
        split at hl'
        · simp at hl'
        simp only [Except.ok.injEq] at hl'
        subst hl'
        rw [pad] at ha
        split_ifs at ha
        simp only [Except.ok.injEq] at ha
        subst ha
        simp [s1]
      · simp only [Except.ok.injEq] at hl'
        subst hl'
        simp [s1]
    intro e
    rw [← e] at this
    simp at this
  rw [assign, if_neg hcount] at hout
  simp at hout

/-- C210 fails when latitude and local time are both coordinates and a single variable is scaled: no value is ever found,
not even for the coordinates. -/
theorem C210_coords_refuted (L : Lib) (rec tol : ℤ) (S : XSet) (n : Names) (hgt : Height) (lc vc : Name) (h : ℤ) (b : Name) (p : Plan)
    (hp : plan (S.vars ++ S.coords) n = .ok p) (h1 : n.mlat ∈ S.coords)
    (h2 : n.mlt ∈ S.coords) (e : Name) (he : p.need = [n.mlat, n.mlt, e]) (hee : p.evars ++ p.curls = [e]) (out : Name → Arr V)
    (ho : addX L c rec tol S n hgt lc vc h b = .ok (some out)) (k : Name) (ix : List ℕ) : (out k).val ix = .nan := by
  simp only [addX, hp, bind, Except.bind, pure, Except.pure] at ho
  split_ifs at ho
  · simp at ho
  split at ho
  · simp at ho
  split at ho
  · simp at ho
  split at ho
  · simp at ho
  split at ho
  · simp at ho
  rename_i pairs _
  split at ho
  · simp at ho
  rename_i o hdo
  split at ho
  · simp at ho
  rename_i out' hout
  simp only [Except.ok.injEq, Option.some.injEq] at ho
  subst ho
  have hno : o = fun _ _ => .nan := by
    cases pairs with
    | nil =>
      simp only [List.map_nil, doTimes, Except.ok.injEq] at hdo
      exact hdo.symm
    | cons q pairs =>
      exfalso
      simp only [List.map_cons, doTimes, bind, Except.bind] at hdo
      split at hdo
      · simp at hdo
      rename_i o1 ho1
      have hf : 1 < (datCoords S p.need).length ∧ ¬ 1 < p.need.length - (p.need.filter (· ∈ S.coords)).length := by
        rw [datCoords, he]
        simp only [List.filter_cons, h1, h2, decide_true, if_true, List.length_append, List.length_cons, List.length_nil]
        split_ifs <;> (try simp only [List.length_cons]) <;> omega
      have hfail : ∀ E : Env, E.S = S → E.p = p → ∀ t ixs, ∃ x, evarAt E t ixs e = .error x := by
        rintro E rfl rfl t ixs
        rw [evarAt, if_pos hf.1, if_neg hf.2]
        split_ifs
        · exact ⟨_, rfl⟩
        · exact ⟨_, rfl⟩
      have hput : ∀ E : Env, E.S = S → E.p = p → ∀ f t r ixs cells o, ∃ x, putScaled L E f t r ixs cells [e] o = .error x := by
        intro E g1 g2 f t r ixs cells o
        obtain ⟨x, hx⟩ := hfail E g1 g2 t ixs
        exact ⟨x, by simp only [putScaled, hx, bind, Except.bind]⟩
      have hcase : (p.evars = [e] ∧ p.curls = []) ∨ (p.evars = [] ∧ p.curls = [e]) := by
        rcases List.append_eq_singleton_iff.1 hee with h | h
        · exact .inr h
        · exact .inl h
      simp only [doTime, bind, Except.bind, pure, Except.pure, if_pos hf.1] at ho1
      split at ho1
      · simp at ho1
      split_ifs at ho1
      split at ho1
      · simp at ho1
      split at ho1
      · simp at ho1
      rename_i ov _
      rcases hcase with ⟨g1, g2⟩ | ⟨g1, g2⟩
      · rw [g1] at ho1
        split at ho1
        · simp at ho1
        rename_i o3 ho3
        obtain ⟨x, hx⟩ := hput ⟨S, n, p, b, h, _, lc, vc⟩ rfl rfl _ _ _ _ _ _
        exact absurd (ho3.symm.trans hx) (by simp)
      · rw [g1, g2, putScaled] at ho1
        simp only at ho1
        obtain ⟨x, hx⟩ := hput ⟨S, n, p, b, h, _, lc, vc⟩ rfl rfl _ _ _ _ _ _
        exact absurd (ho1.symm.trans hx) (by simp)
  subst hno
  rw [assign] at hout
  split_ifs at hout
  simp only [Except.ok.injEq] at hout
  subst hout
  rfl

/-! ## Scaled values -/

/-- Prefixes of a list without doubles are joined to the longer one. -/
theorem join_prefix {A T P Q : List Name} (hn : (A ++ T).Nodup) (hP : P <+: T) {ds : List Name} (hQ : ds.filter (· ∉ A) = Q)
    (hq : Q <+: T) : ∃ R, R <+: T ∧ (A ++ P) ++ ds.filter (· ∉ A ++ P) = A ++ R ∧ (Q = T → R = T) := by
  have e : ds.filter (· ∉ A ++ P) = Q.filter (· ∉ P) := by
    rw [← hQ, List.filter_filter]
    apply List.filter_congr
    intro d _
    simp [Bool.and_comm]
  rw [e]
  rcases List.prefix_or_prefix_of_prefix hP hq with h | h
  · obtain ⟨R, rfl⟩ := h
    refine ⟨P ++ R, hq, ?_, id⟩
    have hT : (P ++ R).Nodup := hq.sublist.nodup (List.nodup_append.1 hn).2.1
    rw [List.filter_append, List.filter_eq_nil_iff.2, List.nil_append, List.filter_eq_self.2, List.append_assoc]
    · intro d hd
      simp only [decide_eq_true_eq]
      intro hdP
      exact (List.nodup_append.1 hT).2.2 d hdP d hd rfl
    · intro d hd
      simpa using hd
  · refine ⟨P, hP, ?_, ?_⟩
    · rw [List.filter_eq_nil_iff.2, List.append_nil]
      intro d hd
      simpa using h.subset hd
    · rintro rfl
      exact List.IsPrefix.eq_of_length hP (le_antisymm hP.length_le h.length_le)

theorem fold_prefix {A T : List Name} (hn : (A ++ T).Nodup) {us : List (List Name)} (hu : ∀ u ∈ us, u.filter (· ∉ A) <+: T)
    {P : List Name} (hP : P <+: T) :
    ∃ R, R <+: T ∧ us.foldl (fun acc ds => acc ++ ds.filter (· ∉ acc)) (A ++ P) = A ++ R := by
  induction us generalizing P with
  | nil => exact ⟨P, hP, rfl⟩
  | cons u us ih =>
    obtain ⟨R, h1, h2, -⟩ := join_prefix hn hP rfl (hu u (by simp))
    rw [List.foldl_cons, h2]
    exact ih (fun v hv => hu v (by simp [hv])) h1

/-- The dimensions of the data come in one order: those that the local times do not have come in the order of the
locations and the further dimensions. -/
def InOrder (S : XSet) (mlt : Name) (need ds : List Name) : Prop :=
  ∀ k ∈ need, k ∈ S.vars → (S.arr k).dims.filter (· ∉ (S.arr mlt).dims) <+: ds.filter (· ∉ (S.arr mlt).dims)

section
variable {S : XSet} {mlat mlt : Name} {rest : List Name} {hgt : Height} {base extra : List Name}

theorem lt_prefix (hs : Sound S (mlat :: mlt :: rest)) (hl : Layout S mlat mlt (mlat :: mlt :: rest) hgt base extra) :
    base ++ extra = (S.arr mlt).dims ++ (base ++ extra).filter (· ∉ (S.arr mlt).dims) := by
  have hn := all_nodup hs hl
  have key : ∀ A T : List Name, base ++ extra = A ++ T → base ++ extra = A ++ (base ++ extra).filter (· ∉ A) := by
    intro A T e
    rw [e] at hn ⊢
    rw [List.filter_append, List.filter_eq_nil_iff.2, List.nil_append, List.filter_eq_self.2]
    · intro d hd
      simp only [decide_eq_true_eq]
      intro hdA
      exact (List.nodup_append.1 hn).2.2 d hdA d hd rfl
    · intro d hd
      simpa using hd
  have hb := hl.locs
  cases hb with
  | series v1 v2 d1 d2 => exact key _ extra (by rw [d2])
  | grid r h1 h2 h3 h4 h5 h6 => exact key _ ([mlat] ++ extra) (by simp)

theorem timeMask_dims (hs : Sound S (mlat :: mlt :: rest)) (hl : Layout S mlat mlt (mlat :: mlt :: rest) hgt base extra)
    (ho : InOrder S mlt (mlat :: mlt :: rest) (base ++ extra)) (h : ℤ) (t : ℕ) :
    (timeMask S (mlat :: mlt :: rest) mlat h t).dims = base ++ extra := by
  have hn := all_nodup hs hl
  have hpre := lt_prefix hs hl
  have hmd := maskDims_eq hs hl
  obtain ⟨tl, etl⟩ := base_head hl.locs
  set A := (S.arr mlt).dims with hA
  set T := (base ++ extra).filter (· ∉ A) with hT
  have hn' : (A ++ T).Nodup := by rw [← hpre]; exact hn
  have hlt : mlt ∈ S.vars := by
    have hb := hl.locs
    cases hb with
    | series v1 v2 d1 d2 => exact v2
    | grid r h1 h2 h3 h4 h5 h6 => exact h2
  have hdat : ∃ us : List (List Name), (dataNames S (mlat :: mlt :: rest)).map (fun k => (S.arr k).dims) = A :: us ∧
      ∀ u ∈ us, u.filter (· ∉ A) <+: T := by
    have hin : ∀ k ∈ dataNames S (mlat :: mlt :: rest), (S.arr k).dims.filter (· ∉ A) <+: T := fun k hk =>
      ho k (List.mem_filter.1 hk).1 (by simpa using (List.mem_filter.1 hk).2)
    by_cases hm : mlat ∈ S.vars
    · have hd : (S.arr mlat).dims = A := by
        have hb := hl.locs
        cases hb with
        | series v1 v2 d1 d2 => rw [d1, hA, d2]
        | grid r h1 h2 h3 h4 h5 h6 => exact absurd hm (hs.apart _ h1)
      have e : dataNames S (mlat :: mlt :: rest) = mlat :: mlt :: rest.filter (· ∈ S.vars) := by
        rw [dataNames, List.filter_cons_of_pos (by simpa using hm), List.filter_cons_of_pos (by simpa using hlt)]
      rw [e] at hin ⊢
      refine ⟨_, by rw [List.map_cons, hd], fun u hu => ?_⟩
      obtain ⟨k, hk, rfl⟩ := List.mem_map.1 hu
      exact hin k (by simp only [List.mem_cons] at hk ⊢; exact .inr hk)
    · have e : dataNames S (mlat :: mlt :: rest) = mlt :: rest.filter (· ∈ S.vars) := by
        rw [dataNames, List.filter_cons_of_neg (by simpa using hm), List.filter_cons_of_pos (by simpa using hlt)]
      rw [e] at hin ⊢
      refine ⟨_, by rw [List.map_cons], fun u hu => ?_⟩
      obtain ⟨k, hk, rfl⟩ := List.mem_map.1 hu
      exact hin k (by simp [hk])
  obtain ⟨us, hus, hus'⟩ := hdat
  obtain ⟨R, r1, r2⟩ := fold_prefix hn' hus' (P := []) (List.nil_prefix)
  have hu : unify ((dataNames S (mlat :: mlt :: rest)).map fun k => (S.arr k).dims) = A ++ R := by
    rw [hus, unify, List.foldl_cons, ← r2]
    simp
  obtain ⟨R', q1, q2, q3⟩ := join_prefix hn' r1 (ds := base ++ extra) rfl (by rw [← hT])
  simp only [timeMask, mask]
  have hD : unify [base ++ extra, [S.index]] = base ++ extra := by
    rw [unify_two, List.filter_eq_nil_iff.2, List.append_nil]
    rw [etl]
    simp
  rw [hu, hmd, hD, unify_two, q2, q3 hT.symm, ← hpre]

end

theorem timeMask_cell {S : XSet} {n : Names} {p : Plan} {hgt : Height} {l' : Loc} {ds : List Name} (hr : Ready S n p hgt l' ds)
    (hn : ds.Nodup) {h : ℤ} {t : ℕ} (hd : (timeMask S p.need n.mlat h t).dims = ds) {ix : List ℕ}
    (hc : ix ∈ cellsAt (Ocb.XData.mask S p.need n.mlat h) t) : (timeMask S p.need n.mlat h t).val ix = true := by
  obtain ⟨c1, c2, c3⟩ := cells_mem.1 hc
  have hd' : unify [unify ((dataNames S p.need).map fun k => (S.arr k).dims),
    unify [(Ocb.XData.mask S p.need n.mlat h).dims, [S.index]]] = ds := hd
  simp only [timeMask]
  rw [hd', Bool.and_eq_true, Bool.and_eq_true]
  rw [hr.msize] at c1
  have hlen : ix.length = ds.length := by
    have := (forall₂_get ((mem_indices _ _).1 c1)).1
    simpa using this
  refine ⟨⟨?_, ?_⟩, ?_⟩
  · have hdims : (Ocb.XData.mask S p.need n.mlat h).dims = ds := hr.mask
    rw [on, hdims, map_getD_idxOf hn hlen]
    exact c2
  · obtain ⟨tl, rfl⟩ := hr.head
    rw [List.idxOf_cons_self]
    cases ix with
    | nil => simp at hlen
    | cons i ix =>
      simp only [List.headD_cons] at c3
      simp [c3]
  · simp only [Ocb.XData.mask] at c2
    rw [hr.mask] at c2
    by_cases hside : signGe (on (S.arr n.mlat) ds ix) h = true
    · simpa only [if_pos hside] using c2
    · rw [rowMax, Ocb.Pysat.rowMax_aux] at c2
      obtain ⟨-, -, c2⟩ := c2
      simp only [if_neg hside, List.mem_map] at c2
      rcases c2 with c2 | ⟨v, ⟨k, -, rfl⟩, hv⟩
      · simp [isFin] at c2
      · simp [isFin] at hv

theorem spread_sub {T cells : List (List ℕ)} {g : List ℕ → V} {l' : List V} (hs : List.Sublist cells T)
    (h : spread (T.map g) cells.length = .ok l') {j : ℕ} {ix : List ℕ} (hj : cells[j]? = some ix) : l'[j]? = some (g ix) := by
  unfold spread at h
  split_ifs at h with hl
  · rw [List.length_map] at hl
    obtain rfl := hs.eq_of_length hl.symm
    simp only [Except.ok.injEq] at h
    rw [← h, List.getElem?_map, hj]
    rfl
  · split at h
    · rename_i v hv
      exfalso
      have h1 : T.length = 1 := by
        have := congrArg List.length hv
        simpa using this
      have h2 := hs.length_le
      have h3 : 0 < cells.length := by
        have := (List.getElem?_eq_some_iff.1 hj).1
        omega
      rw [List.length_map] at hl
      omega
    · simp at h

/-- The values that are scaled are those of the cells. -/
theorem own_values {S : XSet} {n : Names} {p : Plan} {hgt : Height} {l' : Loc} {ds : List Name} (hr : Ready S n p hgt l' ds)
    (hn : ds.Nodup) {h : ℤ} {t : ℕ} {b lc vc : Name} (hd : (timeMask S p.need n.mlat h t).dims = ds) {e : Name}
    (e1 : (S.arr e).dims.Nodup) (e2 : ∀ d ∈ (S.arr e).dims, d ∈ ds) (e3 : (S.arr e).size = (S.arr e).dims.map S.len)
    (e4 : S.index ∈ (S.arr e).dims) (e5 : ds.filter (· ∈ (S.arr e).dims) <+: ds) {l lr : List V}
    (h1 : evarAt ⟨S, n, p, b, h, l', lc, vc⟩ t (cellsAt (Ocb.XData.mask S p.need n.mlat h) t) e = .ok l)
    (h2 : spread l (cellsAt (Ocb.XData.mask S p.need n.mlat h) t).length = .ok lr) {j : ℕ} {ix : List ℕ}
    (hj : (cellsAt (Ocb.XData.mask S p.need n.mlat h) t)[j]? = some ix) :
    lr[j]? = some ((S.arr e).val ((S.arr e).dims.map fun d => ix.getD (ds.idxOf d) 0)) := by
  set cells := cellsAt (Ocb.XData.mask S p.need n.mlat h) t with hcells
  have hlen : ∀ jx ∈ cells, jx.length = ds.length := by
    intro jx hjx
    have := (cells_mem.1 hjx).1
    rw [hr.msize] at this
    simpa using (forall₂_get ((mem_indices _ _).1 this)).1
  have htm := fun jx hjx => timeMask_cell hr hn hd (ix := jx) hjx
  have hsz : (timeMask S p.need n.mlat h t).size = ds.map S.len := by
    have : (timeMask S p.need n.mlat h t).size = (timeMask S p.need n.mlat h t).dims.map S.len := rfl
    rw [this, hd]
  set M := timeMask S p.need n.mlat h t with hM
  have hMwf : M.WF := ⟨by rw [hd]; exact hn, by rw [hsz, hd, List.length_map]⟩
  have hsub : List.Sublist cells ((indices M.size).filter M.val) := by
    have : cells = ((indices M.size).filter M.val).filter fun jx => decide (jx ∈ cells) := by
      rw [List.filter_filter, hsz, ← hr.msize h]
      conv_lhs => rw [hcells, cellsAt]
      apply List.filter_congr
      intro jx hjx
      have hiff := cells_mem (m := Ocb.XData.mask S p.need n.mlat h) (t := t) (ix := jx)
      rw [← hcells] at hiff
      by_cases hx : jx ∈ cells
      · obtain ⟨-, g1, g2⟩ := hiff.1 hx
        simp only [g1, g2, hx, htm jx hx, decide_true, Bool.and_self, beq_self_eq_true]
      · have : ¬ ((Ocb.XData.mask S p.need n.mlat h).val jx = true ∧ jx.headD 0 = t) := fun hc => hx (hiff.2 ⟨hjx, hc⟩)
        simp only [hx, decide_false, Bool.false_and]
        rw [← Bool.not_eq_true]
        simpa using this
    rw [this]
    exact List.filter_sublist
  unfold evarAt at h1
  simp only at h1
  split_ifs at h1 with hc0 hc1 hc2
  · simp only [bind, Except.bind, pure, Except.pure, ← hM] at h1
    by_cases hdims : M.dims = (S.arr e).dims
    · have hs' : M.size = (S.arr e).size := by rw [hsz, e3, ← hdims, hd]
      rw [reshape, if_pos hdims, if_pos hs', whereDrop_eq] at h1
      simp only [Except.ok.injEq, List.map_map] at h1
      rw [← h1] at h2
      rw [spread_sub (hsub.trans ?_) h2 hj]
      · have hix := List.mem_of_getElem? hj
        simp only [Function.comp, htm ix hix, if_true, Option.getD_some, Option.some.injEq]
        rw [← hdims, hd, map_getD_idxOf hn (hlen ix hix)]
      · have : (indices M.size).filter M.val = ((indices M.size).filter fun ix =>
            decide (∀ d < M.size.length, kept M d (ix.getD d 0) = true)).filter M.val := by
          rw [List.filter_filter]
          apply List.filter_congr
          intro jx hjx
          by_cases hv : M.val jx = true
          · rw [hv, Bool.true_and, eq_comm, decide_eq_true_eq]
            exact kept_of_true M hjx hv
          · simp [hv]
        rw [this]
        exact List.filter_sublist
    · rw [C92_pad_partial _ _ hMwf ⟨e1, by rw [e3, List.length_map]⟩ hdims (by rw [hd]; exact e2) (by rw [hd]; exact e5)] at h1
      · simp only [Except.ok.injEq, want, List.map_map] at h1
        rw [← h1] at h2
        rw [spread_sub hsub h2 hj]
        simp [hd]
      · have key : ∀ {β : Type} (a : Arr β), a.size = a.dims.map S.len → ∀ d ∈ a.dims, a.sizeOf d = S.len d := by
          intro β a ha d hda
          have hlt := List.idxOf_lt_length_of_mem hda
          rw [Arr.sizeOf, ha, List.getD_eq_getElem?_getD, List.getElem?_map, List.getElem?_eq_getElem hlt, List.getElem_idxOf]
          rfl
        intro d hda
        rw [key ⟨(S.arr e).dims, (S.arr e).size, fun ix => some ((S.arr e).val ix)⟩ e3 d hda, key M (by rw [hsz, hd]) d (by rw [hd]; exact e2 d hda)]
  · simp only [Except.ok.injEq] at h1
    rw [← h1] at h2
    rw [spread_sub (List.Sublist.refl _) h2 hj]
    have hds : ds = [S.index] := by
      rw [hr.dat] at hc1
      obtain ⟨tl, rfl⟩ := hr.head
      rw [List.length_cons] at hc1
      rw [List.length_eq_zero_iff.1 (by omega : tl.length = 0)]
    have hed : (S.arr e).dims = [S.index] := by
      subst hds
      have : (S.arr e).dims.Perm [S.index] := by
        rw [List.perm_ext_iff_of_nodup e1 hn]
        intro d
        exact ⟨e2 d, fun hd => by rw [List.mem_singleton.1 hd]; exact e4⟩
      exact List.perm_singleton.1 this
    have := map_getD_idxOf hn (hlen ix (List.mem_of_getElem? hj))
    rw [hed, ← hds, this]

/-- C211: each cell of a scaled variable, found by its labels, holds the scaled value of the variable at these labels,
for the record that gives the coordinates of the cell; cells without a record are NaN.  What is missing: variables whose
dimensions come in another order, for which the statement fails (`C211_order_refuted`), or that lack one of the first
dimensions (`C92_pad_refuted`). -/
theorem C211_scaled_partial (L : Lib) (hb : IsBoundary c good) (rec : ℤ) (h0 : -1 ≤ rec) (tol : ℤ) (htol : 0 ≤ tol) (S : XSet)
    (n : Names) (hgt : Height) (lc vc : Name) (h : ℤ) (hh : h = 1 ∨ h = -1) (b : Name) (p : Plan) (base extra : List Name)
    (hp : plan (S.vars ++ S.coords) n = .ok p) (hs : Sound S p.need)
    (hl : Layout S n.mlat n.mlt p.need hgt base extra) (hord : InOrder S n.mlt p.need (base ++ extra))
    (hk : (Ocb.Pysat.written n p b).Nodup)
    (he : ∀ e ∈ p.evars ++ p.curls, e ∈ S.vars ∧ S.index ∈ (S.arr e).dims ∧
      (base ++ extra).filter (· ∈ (S.arr e).dims) <+: base ++ extra) (out : Name → Arr V)
    (ho : addX L c rec tol S n hgt lc vc h b = .ok (some out)) (σ : Name → ℕ) (hσ : ∀ d ∈ base ++ extra, σ d < S.len d) :
    (∃ r v, Chosen S n.mlat p.need h σ ∧ Cand good rec r ∧ TimeClose c S tol (σ S.index) r ∧
      L.norm r (cell S n.mlat σ) (cell S n.mlt σ) (heightAt S hgt σ) = .ok v ∧
      (out (under "r_corr".toList b)).val ((base ++ extra).map σ) = v.2.2 ∧
      (∀ e ∈ p.evars, ∃ s, L.scale .evar (cell S e σ) (L.radius r v.2.2) = .ok s ∧
        (out (under e b)).val ((base ++ extra).map σ) = s) ∧
      ∀ e ∈ p.curls, ∃ s, L.scale .curl (cell S e σ) (L.radius r v.2.2) = .ok s ∧
        (out (under e b)).val ((base ++ extra).map σ) = s) ∨
    ∀ k, (out k).val ((base ++ extra).map σ) = .nan := by
  have hne := written_ne hk
  obtain ⟨rest, e1, -⟩ := need_eq hp hne
  obtain ⟨l', hr, f3, f4⟩ := ready hp hs hl hne
  obtain ⟨o, hout, hcell⟩ := addX_spec L hb rec h0 tol htol hh hp hr hk ho
  have hs' := hs
  have hl' := hl
  have hord' := hord
  rw [e1] at hs' hl' hord'
  have hn := all_nodup hs' hl'
  rcases hcell σ hσ with ⟨r, a1, a2, a3, a4, -⟩ | ⟨a1, a2⟩
  · left
    have hmem := (hr.mem hh hσ (σ S.index)).2 ⟨a1, rfl⟩
    obtain ⟨v, v1, -, -, v4⟩ := a4.1 _ hmem
    obtain ⟨w1, w2, w3⟩ := f3.vals σ hσ
    have hsz : l'.height.size = (base ++ extra).map S.len := by
      rcases f3.height with hz | ⟨hz, -⟩
      · exact hz
      · exact absurd hz f4
    rw [w1, w2, w3 hsz] at v1
    have hd : (timeMask S p.need n.mlat h (σ S.index)).dims = base ++ extra := by
      rw [e1]
      exact timeMask_dims hs' hl' hord' h _
    have key : ∀ f es, (f = Fn.evar ∧ es = p.evars) ∨ (f = Fn.curl ∧ es = p.curls) → ∀ e ∈ es,
        ∃ s, L.scale f (cell S e σ) (L.radius r v.2.2) = .ok s ∧ (out (under e b)).val ((base ++ extra).map σ) = s := by
      intro f es hf e hes
      have hen : e ∈ p.evars ++ p.curls := by
        rcases hf with ⟨-, rfl⟩ | ⟨-, rfl⟩
        · exact List.mem_append_left _ hes
        · exact List.mem_append_right _ hes
      obtain ⟨k1, k2, k3⟩ := he e hen
      have hneed := need_mem hp hen (List.mem_append_left _ k1)
      obtain ⟨u1, -, u3⟩ := hs.arr e hneed
      obtain ⟨l, lr, g1, g2, g3⟩ := a4.2.1 f es hf e hes
      obtain ⟨j, hj⟩ := List.mem_iff_getElem?.1 hmem
      have hval := own_values hr hn hd u1 (hr.sub e hneed) u3 k2 k3 g1 g2 hj
      have hc : (S.arr e).val ((S.arr e).dims.map fun d => ((base ++ extra).map σ).getD ((base ++ extra).idxOf d) 0) = cell S e σ :=
        on_map (S.arr e) (hr.sub e hneed) σ
      rw [hc] at hval
      obtain ⟨s, s1, s2⟩ := g3 j _ _ hj hval
      rw [v4] at s1
      exact ⟨s, s1, by rw [hout]; exact s2⟩
    refine ⟨r, v, a1, a2, a3, v1, by rw [hout]; exact v4, fun e hen => key .evar p.evars (.inl ⟨rfl, rfl⟩) e hen,
      fun e hen => key .curl p.curls (.inr ⟨rfl, rfl⟩) e hen⟩
  · exact .inr fun k => by rw [hout]; exact a1 k

/-! ## Vectors -/

/-- A variable whose dimensions are the first ones of a list -/
structure FitIn (S : XSet) (ds : List Name) (x : Name) : Prop where
  nodup : (S.arr x).dims.Nodup
  sub : ∀ d ∈ (S.arr x).dims, d ∈ ds
  size : (S.arr x).size = (S.arr x).dims.map S.len
  index : S.index ∈ (S.arr x).dims
  order : ds.filter (· ∈ (S.arr x).dims) <+: ds

/-- A table with a single row: the values of a set at some labels -/
def rowAt (S : XSet) (σ : Name → ℕ) : Ocb.Pysat.Table := ⟨S.vars ++ S.coords, 1, fun k _ => cell S k σ, fun _ => 0⟩

theorem entryVars_mem {S : XSet} {vs : List (Name × List (Name × Arg))} {x : Name} :
    x ∈ entryVars S vs ↔ ∃ v ∈ vs, ∃ k ∈ v.2, k.2 = .text x ∧ x ∈ S.vars ++ S.coords := by
  simp only [entryVars, List.mem_flatMap, List.mem_filterMap]
  refine ⟨fun ⟨v, hv, k, hk, h⟩ => ⟨v, hv, k, hk, ?_⟩, fun ⟨v, hv, k, hk, h1, h2⟩ => ⟨v, hv, k, hk, ?_⟩⟩
  · split at h
    · rename_i y hy
      split_ifs at h with hm
      simp only [Option.some.injEq] at h
      subst h
      exact ⟨hy, hm⟩
    · simp at h
  · simp only [h1, if_pos h2]

theorem mapE_lookup {α β : Type} [BEq α] [LawfulBEq α] {f : α → Except PyErr β} {l : List α} {res : List (α × β)}
    (h : mapE (fun x => do
      let y ← f x
      return (x, y)) l = .ok res) {x : α} (hx : x ∈ l) : ∃ y, f x = .ok y ∧ res.lookup x = some y := by
  induction l generalizing res with
  | nil => simp at hx
  | cons a l ih =>
    simp only [mapE, bind, Except.bind, pure, Except.pure] at h
    split at h
    · simp at h
    rename_i q hq
    split at hq
    · simp at hq
    rename_i y hy
    simp only [Except.ok.injEq] at hq
    subst hq
    split at h
    · simp at h
    rename_i rs hrs
    simp only [Except.ok.injEq] at h
    subst h
    by_cases he : x = a
    · subst he
      exact ⟨y, hy, by rw [List.lookup_cons, beq_self_eq_true]⟩
    · rcases List.mem_cons.1 hx with hx | hx
      · exact absurd hx he
      · obtain ⟨z, z1, z2⟩ := ih hrs hx
        exact ⟨z, z1, by rw [List.lookup_cons, beq_false_of_ne he]; exact z2⟩

/-- Dictionaries made from rows with the same values are the same. -/
theorem inits_same {t t' : Ocb.Pysat.Table} {i i' : ℕ} (hv : t.vars = t'.vars) {vs : List (Name × List (Name × Arg))}
    (h : ∀ v ∈ vs, ∀ k ∈ v.2, ∀ x, k.2 = .text x → x ∈ t.vars → t.cell x i = t'.cell x i') (d : Ocb.Pysat.Init) :
    Ocb.Pysat.inits t i d vs = Ocb.Pysat.inits t' i' d vs := by
  induction vs generalizing d with
  | nil => rfl
  | cons v vs ih =>
    obtain ⟨e, entries⟩ := v
    have hf : entries.foldl (fun d k => Ocb.Pysat.setInit t i d k.1 k.2) d = entries.foldl (fun d k => Ocb.Pysat.setInit t' i' d k.1 k.2) d := by
      apply List.foldl_ext
      intro d k hk
      funext k'
      simp only [Ocb.Pysat.setInit]
      split_ifs
      · cases hk2 : k.2 with
        | fn f => rfl
        | text x =>
          by_cases hm : x ∈ t.vars
          · have hm' := hm
            rw [hv] at hm'
            simp only [if_pos hm, if_pos hm', h (e, entries) (by simp) k hk x hk2 hm]
          · have hm' := hm
            rw [hv] at hm'
            simp only [if_neg hm, if_neg hm']
      · rfl
    simp only [Ocb.Pysat.inits, hf, ih (fun v hv => h v (by simp [hv]))]

/-- C212: each cell of a vector attribute, found by its labels, holds what the vector computation gives for the location
with these labels, the record that gives the coordinates of the cell, and the dictionary that a table with the values of
the set at these labels as its only row leads to.  Cells without a record are NaN.  What is missing: components whose
dimensions come in another order, for which the statement fails (`C212_order_refuted`), or that lack one of the first
dimensions; and names that are not made (`C212_names_refuted`). -/
theorem C212_vectors_partial (L : Lib) (hb : IsBoundary c good) (rec : ℤ) (h0 : -1 ≤ rec) (tol : ℤ) (htol : 0 ≤ tol) (S : XSet)
    (n : Names) (hgt : Height) (lc vc : Name) (h : ℤ) (hh : h = 1 ∨ h = -1) (b : Name) (p : Plan) (base extra : List Name)
    (hp : plan (S.vars ++ S.coords) n = .ok p) (hs : Sound S p.need)
    (hl : Layout S n.mlat n.mlt p.need hgt base extra) (hord : InOrder S n.mlt p.need (base ++ extra))
    (hk : (Ocb.Pysat.written n p b).Nodup)
    (hx : ∀ v ∈ p.vects, ∀ k ∈ v.2, ∀ x, k.2 = .text x → x ∈ S.vars ++ S.coords → FitIn S (base ++ extra) x)
    (out : Name → Arr V) (ho : addX L c rec tol S n hgt lc vc h b = .ok (some out)) (σ : Name → ℕ)
    (hσ : ∀ d ∈ base ++ extra, σ d < S.len d) :
    (∃ r v, Chosen S n.mlat p.need h σ ∧ Cand good rec r ∧ TimeClose c S tol (σ S.index) r ∧
      L.norm r (cell S n.mlat σ) (cell S n.mlt σ) (heightAt S hgt σ) = .ok v ∧
      (out (under n.mlat b)).val ((base ++ extra).map σ) = v.1 ∧
      ∀ u ∈ Ocb.Pysat.inits (rowAt S σ) 0 (Ocb.Pysat.default v.1 v.2.1 v.2.2 (heightAt S hgt σ) lc vc) p.vects,
        ∃ f, L.vect r (σ S.index) (cell S n.mlat σ) (cell S n.mlt σ) u.2 = .ok f ∧
          ∀ a ∈ attrs, (out (keySet b u.1 a)).val ((base ++ extra).map σ) = f a) ∨
    ∀ k, (out k).val ((base ++ extra).map σ) = .nan := by
  have hne := written_ne hk
  obtain ⟨rest, e1, -⟩ := need_eq hp hne
  obtain ⟨l', hr, f3, f4⟩ := ready hp hs hl hne
  obtain ⟨o, hout, hcell⟩ := addX_spec L hb rec h0 tol htol hh hp hr hk ho
  have hs' := hs
  have hl' := hl
  have hord' := hord
  rw [e1] at hs' hl' hord'
  have hn := all_nodup hs' hl'
  rcases hcell σ hσ with ⟨r, a1, a2, a3, a4, -⟩ | ⟨a1, a2⟩
  · left
    have hmem := (hr.mem hh hσ (σ S.index)).2 ⟨a1, rfl⟩
    obtain ⟨v, v1, v2, v3, v4⟩ := a4.1 _ hmem
    obtain ⟨w1, w2, w3⟩ := f3.vals σ hσ
    have hsz : l'.height.size = (base ++ extra).map S.len := by
      rcases f3.height with hz | ⟨hz, -⟩
      · exact hz
      · exact absurd hz f4
    rw [w1, w2, w3 hsz] at v1
    have hd : (timeMask S p.need n.mlat h (σ S.index)).dims = base ++ extra := by
      rw [e1]
      exact timeMask_dims hs' hl' hord' h _
    obtain ⟨j, hj⟩ := List.mem_iff_getElem?.1 hmem
    obtain ⟨lists, b1, b2⟩ := a4.2.2
    refine ⟨r, v, a1, a2, a3, v1, by rw [hout]; exact v2, fun u hu => ?_⟩
    have hsame : cellInits ⟨S, n, p, b, h, l', lc, vc⟩ o lists j ((base ++ extra).map σ) =
        Ocb.Pysat.inits (rowAt S σ) 0 (Ocb.Pysat.default v.1 v.2.1 v.2.2 (heightAt S hgt σ) lc vc) p.vects := by
      simp only [cellInits]
      simp only at v2 v3 v4
      rw [v2, v3, v4, w3 hsz]
      refine inits_same (t := cellTable S lists) (t' := rowAt S σ) rfl (fun q hq k hkq x hkx hxv => ?_) _
      have fx := hx q hq k hkq x hkx hxv
      have hxe : x ∈ entryVars S p.vects := entryVars_mem.2 ⟨q, hq, k, hkq, hkx, hxv⟩
      simp only [vectLists] at b1
      obtain ⟨y, y1, y2⟩ := mapE_lookup (f := fun x => do
        let l ← evarAt ⟨S, n, p, b, h, l', lc, vc⟩ (σ S.index) (cellsAt (mask S p.need n.mlat h) (σ S.index)) x
        if l.length = (cellsAt (mask S p.need n.mlat h) (σ S.index)).length then return l else .error .valueError)
        (l := entryVars S p.vects) (res := lists) (by
          rw [← b1]
          congr 1
          funext x
          cases evarAt ⟨S, n, p, b, h, l', lc, vc⟩ (σ S.index) (cellsAt (mask S p.need n.mlat h) (σ S.index)) x with
          | error e => rfl
          | ok l =>
            simp only [bind, Except.bind, pure, Except.pure]
            split_ifs <;> rfl) hxe
      simp only [bind, Except.bind, pure, Except.pure] at y1
      split at y1
      · simp at y1
      rename_i l hlv
      split_ifs at y1 with hlen
      simp only [Except.ok.injEq] at y1
      subst y1
      have hval := own_values hr hn hd fx.nodup fx.sub fx.size fx.index fx.order hlv (by unfold spread; rw [if_pos hlen]) hj
      have hc : (S.arr x).val ((S.arr x).dims.map fun d => ((base ++ extra).map σ).getD ((base ++ extra).idxOf d) 0) = cell S x σ :=
        on_map (S.arr x) fx.sub σ
      rw [hc] at hval
      change ((lists.lookup x).getD []).getD j .nan = cell S x σ
      rw [y2, Option.getD_some, List.getD_eq_getElem?_getD, hval]
      rfl
    obtain ⟨f, g1, g2⟩ := b2 j _ hj u (by rw [hsame]; exact hu)
    rw [w1, w2] at g1
    exact ⟨f, g1, fun a ha => by rw [hout]; exact g2 a ha⟩
  · exact .inr fun k => by rw [hout]; exact a1 k

/-- C212 fails when an attribute is written under a name that was not made, as for vectors whose names contain `ocb` and a
boundary that is not an `OCBoundary`: no value is ever found, not even for the coordinates. -/
theorem C212_names_refuted (L : Lib) (rec tol : ℤ) (S : XSet) (n : Names) (hgt : Height) (lc vc : Name) (h : ℤ) (b : Name) (p : Plan)
    (hp : plan (S.vars ++ S.coords) n = .ok p) (x : Name) (h1 : x ∈ Ocb.Pysat.written n p b) (h2 : x ∉ outKeys b n p)
    (out : Name → Arr V) (ho : addX L c rec tol S n hgt lc vc h b = .ok (some out)) (k : Name) (ix : List ℕ) :
    (out k).val ix = .nan := by
  simp only [addX, hp, bind, Except.bind, pure, Except.pure] at ho
  split_ifs at ho
  · simp at ho
  split at ho
  · simp at ho
  split at ho
  · simp at ho
  split at ho
  · simp at ho
  split at ho
  · simp at ho
  rename_i pairs _
  split at ho
  · simp at ho
  rename_i o hdo
  split at ho
  · simp at ho
  rename_i out' hout
  simp only [Except.ok.injEq, Option.some.injEq] at ho
  subst ho
  have hno : o = fun _ _ => .nan := by
    cases pairs with
    | nil =>
      simp only [List.map_nil, doTimes, Except.ok.injEq] at hdo
      exact hdo.symm
    | cons q pairs =>
      exfalso
      simp only [List.map_cons, doTimes, bind, Except.bind] at hdo
      split at hdo
      · simp at hdo
      rename_i o1 ho1
      simp only [doTime, bind, Except.bind, pure, Except.pure] at ho1
      split at ho1
      · simp at ho1
      have hbad : ∃ k ∈ writes n p b, k ∉ outKeys b n p := ⟨x, by rw [writes_eq]; exact h1, h2⟩
      simp only [if_pos hbad] at ho1
      split_ifs at ho1
  subst hno
  rw [assign] at hout
  split_ifs at hout
  simp only [Except.ok.injEq] at hout
  subst hout
  rfl

/-! ## Calls that give a result -/

theorem putScaled_ok {L : Lib} (hL : Ocb.Pysat.Total L) {E : Env} {f : Fn} {t : ℕ} {r : ℤ} {ixs cells : List (List ℕ)}
    {es : List Name} (he : ∀ e ∈ es, ∃ l l', evarAt E t ixs e = .ok l ∧ spread l cells.length = .ok l') (o : Out) :
    ∃ o', putScaled L E f t r ixs cells es o = .ok o' := by
  induction es generalizing o with
  | nil => exact ⟨o, rfl⟩
  | cons e es ih =>
    obtain ⟨l, l', h1, h2⟩ := he e (by simp)
    obtain ⟨res, h3⟩ := mapE_ok (f := fun c : List ℕ × V => do
      let v ← L.scale f c.2 (L.radius r (o (under "r_corr".toList E.b) c.1))
      return (c.1, v)) (l := cells.zip l') (by
        intro c _
        obtain ⟨v, hv⟩ := hL.2.2 f c.2 (L.radius r (o (under "r_corr".toList E.b) c.1))
        exact ⟨(c.1, v), by rw [hv]; rfl⟩)
    obtain ⟨o', h4⟩ := ih (fun e' he' => he e' (by simp [he'])) (store o (under e E.b) res)
    exact ⟨o', by
      simp only [putScaled, h1, h2, bind, Except.bind]
      simp only [bind, Except.bind] at h3
      rw [h3]
      exact h4⟩

theorem putVects_ok {L : Lib} (hL : Ocb.Pysat.Total L) {E : Env} {t : ℕ} {r : ℤ} {ixs cells : List (List ℕ)}
    (he : ∀ e ∈ entryVars E.S E.p.vects, ∃ l, evarAt E t ixs e = .ok l ∧ l.length = cells.length) (o : Out) :
    ∃ o', putVects L E t r ixs cells o = .ok o' := by
  obtain ⟨lists, h1⟩ := mapE_ok (f := fun x => do
    let l ← evarAt E t ixs x
    if l.length = cells.length then return (x, l) else .error .valueError) (l := entryVars E.S E.p.vects) (by
      intro x hx
      obtain ⟨l, l1, l2⟩ := he x hx
      exact ⟨(x, l), by simp only [l1, bind, Except.bind, if_pos l2]; rfl⟩)
  obtain ⟨res, h2⟩ := mapE_ok (f := fun c : List ℕ × ℕ => do
    let d := Ocb.Pysat.default (o (under E.n.mlat E.b) c.1) (o (under E.n.mlt E.b) c.1) (o (under "r_corr".toList E.b) c.1)
      (E.loc.height.val c.1) E.locC E.vecC
    let vs ← mapE (fun v : Name × Ocb.Pysat.Init => do
      let f ← L.vect r t (E.loc.lat.val c.1) (E.loc.lt.val c.1) v.2
      return (v.1, f)) (Ocb.Pysat.inits (cellTable E.S lists) c.2 d E.p.vects)
    return (c.1, vs)) (l := cells.zipIdx) (by
      intro c _
      obtain ⟨vs, hvs⟩ := mapE_ok (f := fun v : Name × Ocb.Pysat.Init => do
        let f ← L.vect r t (E.loc.lat.val c.1) (E.loc.lt.val c.1) v.2
        return (v.1, f)) (l := Ocb.Pysat.inits (cellTable E.S lists) c.2 (Ocb.Pysat.default (o (under E.n.mlat E.b) c.1)
          (o (under E.n.mlt E.b) c.1) (o (under "r_corr".toList E.b) c.1) (E.loc.height.val c.1) E.locC E.vecC) E.p.vects) (by
        intro v _
        obtain ⟨f, hf⟩ := hL.2.1 r t (E.loc.lat.val c.1) (E.loc.lt.val c.1) v.2
        exact ⟨(v.1, f), by rw [hf]; rfl⟩)
      exact ⟨(c.1, vs), by
        simp only
        rw [hvs]
        rfl⟩)
  refine ⟨(vectPairs E.p).foldl (fun o q => store o (keySet E.b q.1 q.2)
    (res.map fun c => (c.1, ((c.2.lookup q.1).map fun f => f q.2).getD .nan))) o, ?_⟩
  · unfold putVects vectLists
    rw [h1]
    simp only [bind, Except.bind, pure, Except.pure] at h2 ⊢
    rw [h2]

theorem doTimes_ok {L : Lib} (hL : Ocb.Pysat.Total L) {E : Env} (hm : Match E) (hz : E.loc.height.size ≠ [])
    (hmade : ∀ k ∈ writes E.n E.p E.b, k ∈ outKeys E.b E.n E.p)
    {l : List (ℕ × ℤ)} (he : ∀ q ∈ l, ∀ e ∈ E.p.evars ++ E.p.curls ++ entryVars E.S E.p.vects,
      ∃ a, evarAt E q.1 (cellsAt (mask E.S E.p.need E.n.mlat E.h) q.1) e = .ok a ∧
        a.length = (cellsAt (mask E.S E.p.need E.n.mlat E.h) q.1).length) (o : Out) : ∃ o', doTimes L E l o = .ok o' := by
  induction l generalizing o with
  | nil => exact ⟨o, rfl⟩
  | cons q l ih =>
    obtain ⟨t, r⟩ := q
    obtain ⟨p1, p2⟩ := parts_eq hm t
    have hq := he (t, r) (by simp)
    set cells := cellsAt (mask E.S E.p.need E.n.mlat E.h) t with hcells
    have hq' : ∀ e ∈ E.p.evars ++ E.p.curls, ∃ a a', evarAt E t cells e = .ok a ∧ spread a cells.length = .ok a' := by
      intro e hes
      obtain ⟨a, a1, a2⟩ := hq e (List.mem_append_left _ hes)
      exact ⟨a, a, a1, by unfold spread; rw [if_pos a2]⟩
    obtain ⟨res, h3⟩ := mapE_ok (f := fun ix : List ℕ => do
      let v ← L.norm r (E.loc.lat.val ix) (E.loc.lt.val ix) (E.loc.height.val ix)
      return (ix, v)) (l := cells) (by
        intro ix _
        obtain ⟨v, hv⟩ := hL.1 r (E.loc.lat.val ix) (E.loc.lt.val ix) (E.loc.height.val ix)
        exact ⟨(ix, v), by rw [hv]; rfl⟩)
    obtain ⟨o0, h0⟩ := putVects_ok hL (t := t) (r := r) (ixs := cells) (cells := cells)
      (fun e hes => hq e (List.mem_append_right _ hes))
      (store (store (store o (under E.n.mlat E.b) (res.map fun c => (c.1, c.2.1))) (under E.n.mlt E.b)
        (res.map fun c => (c.1, c.2.2.1))) (under "r_corr".toList E.b) (res.map fun c => (c.1, c.2.2.2)))
    obtain ⟨o1, h1⟩ := putScaled_ok hL (f := .evar) (t := t) (r := r) (ixs := cells) (cells := cells) (es := E.p.evars)
      (fun e hes => hq' e (List.mem_append_left _ hes)) o0
    obtain ⟨o2, h2⟩ := putScaled_ok hL (f := .curl) (t := t) (r := r) (ixs := cells) (cells := cells) (es := E.p.curls)
      (fun e hes => hq' e (List.mem_append_right _ hes)) o1
    have hnm : ¬ ∃ k ∈ writes E.n E.p E.b, k ∉ outKeys E.b E.n E.p := by
      rintro ⟨k, k1, k2⟩
      exact k2 (hmade k k1)
    have hdo : doTime L E o t r = .ok o2 := by
      simp only [bind, Except.bind] at h3
      simp only [doTime, ← hcells, p1, p2, bind, Except.bind, flatten_single, if_neg hz, if_neg hnm, h3, h0, h1, h2]
    obtain ⟨o', h4⟩ := ih (fun q hq => he q (by simp [hq])) o2
    exact ⟨o', by simp only [doTimes, hdo, bind, Except.bind, h4]⟩

/-- The selected times, as `match_data_ocb` gets them -/
noncomputable def usedTimes (S : XSet) (n : Names) (p : Plan) (h : ℤ) : List ℤ := (firsts (mask S p.need n.mlat h)).map fun t => S.time.getD t 0

theorem usedTimes_mem {S : XSet} {n : Names} {p : Plan} {hgt : Height} {l' : Loc} {ds : List Name} (hr : Ready S n p hgt l' ds)
    (hn : ds.Nodup) {h : ℤ} (hh : h = 1 ∨ h = -1) (x : ℤ) :
    x ∈ usedTimes S n p h ↔ ∃ σ : Name → ℕ, (∀ d ∈ ds, σ d < S.len d) ∧ Chosen S n.mlat p.need h σ ∧ S.time[σ S.index]? = some x := by
  simp only [usedTimes, List.mem_map]
  constructor
  · rintro ⟨t, ht, rfl⟩
    have hlt := hr.first t ht
    obtain ⟨-, ix, i1, i2, i3⟩ := firsts_mem.1 ht
    have i1' := i1
    rw [hr.msize] at i1'
    obtain ⟨g1, g2⟩ := forall₂_get ((mem_indices _ _).1 i1')
    have hix : ds.map (fun d => ix.getD (ds.idxOf d) 0) = ix := map_getD_idxOf hn (by simpa using g1)
    have hσ : ∀ d ∈ ds, ix.getD (ds.idxOf d) 0 < S.len d := by
      intro d hd
      have hj := List.idxOf_lt_length_of_mem hd
      have := g2 _ (by simpa using hj)
      rwa [List.getD_eq_getElem?_getD (l := ds.map S.len), List.getElem?_map, List.getElem?_eq_getElem hj, List.getElem_idxOf] at this
    have hm := (hr.mem hh hσ t).1 (by
      rw [hix]
      exact cells_mem.2 ⟨i1, i2, i3⟩)
    exact ⟨_, hσ, hm.1, by rw [hm.2]; exact times_at hlt⟩
  · rintro ⟨σ, h1, h2, h3⟩
    obtain ⟨i1, i2, i3⟩ := cells_mem.1 ((hr.mem hh h1 _).2 ⟨h2, rfl⟩)
    refine ⟨σ S.index, firsts_mem.2 ⟨?_, _, i1, i2, i3⟩, ?_⟩
    · rw [hr.msize, hr.hd]
      exact (List.getElem?_eq_some_iff.1 h3).1
    · rw [List.getD_eq_getElem?_getD, h3]
      rfl

theorem succeeds (L : Lib) (hL : Ocb.Pysat.Total L) (hb : IsBoundary c good) (rec : ℤ) (h0 : -1 ≤ rec) (tol : ℤ)
    (htol : 0 ≤ tol) {S : XSet} {n : Names} {hgt : Height} (lc vc : Name) (h : ℤ) (b : Name) {p : Plan} {ds : List Name} {l' : Loc}
    (hp : plan (S.vars ++ S.coords) n = .ok p) (hr : Ready S n p hgt l' ds) (hz : l'.height.size ≠ []) (hdat : dataNames S p.need ≠ [])
    (hmade : ∀ k ∈ Ocb.Pysat.written n p b, k ∈ outKeys b n p)
    (he : ∀ t, ∀ e ∈ p.evars ++ p.curls ++ entryVars S p.vects,
      ∃ a, evarAt ⟨S, n, p, b, h, l', lc, vc⟩ t (cellsAt (mask S p.need n.mlat h) t) e = .ok a ∧
        a.length = (cellsAt (mask S p.need n.mlat h) t).length)
    (hT : S.time.Pairwise (· ≤ ·)) (hN : NondecOn c.times (Cand good rec)) (hc : c.times ≠ [])
    (hno : ¬ NoOverlap c good rec (usedTimes S n p h) tol) : ∃ out, addX L c rec tol S n hgt lc vc h b = .ok (some out) := by
  obtain ⟨l, g1, g2⟩ := hr.loc
  have hrec : ¬ c.records = 0 := by
    rw [Cycler.records]
    have := List.length_pos_iff.2 hc
    omega
  cases hd : drive c (usedTimes S n p h) tol 0 rec with
  | error e =>
    exact absurd ((C60_drive_error_iff_partial hb _ tol htol rec h0 (hr.sorted hT) hN e).1 hd).2 hno
  | ok pairs =>
    obtain ⟨o, ho⟩ := doTimes_ok hL (hr.fit b h lc vc) hz (by rw [writes_eq]; exact hmade)
      (l := pairs.map fun q => ((firsts (mask S p.need n.mlat h)).getD q.1 0, q.2)) (fun q _ e hes => he q.1 e hes) fun _ _ => .nan
    refine ⟨fun k => ⟨l'.coords, l'.lat.size, o k⟩, ?_⟩
    rw [usedTimes] at hd
    simp only [addX, hp, bind, Except.bind, pure, Except.pure, g1, g2, timesAt_ok hr.first, if_neg hrec, if_neg hdat, hd, ho]
    rw [assign, if_pos (by rw [hr.coords, hr.size])]

/-- Without vectors the keys differ if the names do. -/
theorem written_plain {n : Names} {p : Plan} (b : Name) (hv : p.vects = [])
    (h : (n.mlat :: n.mlt :: "r_corr".toList :: (p.evars ++ p.curls)).Nodup) : (Ocb.Pysat.written n p b).Nodup := by
  have : Ocb.Pysat.written n p b = (n.mlat :: n.mlt :: "r_corr".toList :: (p.evars ++ p.curls)).map fun e => under e b := by
    simp [Ocb.Pysat.written, hv]
  rw [this]
  exact h.map fun x y hxy => under_inj hxy

/-- Without vectors all keys are made. -/
theorem made_plain {n : Names} {p : Plan} (b : Name) (hv : p.vects = []) : ∀ k ∈ Ocb.Pysat.written n p b, k ∈ outKeys b n p := by
  intro k hk
  simp only [Ocb.Pysat.written, hv, List.map_nil, List.flatMap_nil, List.append_nil] at hk
  simp only [outKeys, Ocb.Pysat.ocbNames, hv, List.map_nil, List.foldl_nil, List.not_mem_nil, if_false, List.mem_flatMap,
    List.mem_singleton]
  exact ⟨k, hk, rfl⟩

/-- C210: without scaled variables, with records and times in order that overlap, a library without errors and a variable
among the data, the call gives a result. -/
theorem C210_succeeds (L : Lib) (hL : Ocb.Pysat.Total L) (hb : IsBoundary c good) (rec : ℤ) (h0 : -1 ≤ rec) (tol : ℤ)
    (htol : 0 ≤ tol) (S : XSet) (n : Names) (hgt : Height) (lc vc : Name) (h : ℤ) (b : Name) (p : Plan) (base extra : List Name)
    (hp : plan (S.vars ++ S.coords) n = .ok p) (hv : n.vects = []) (hs : Sound S p.need)
    (hl : Layout S n.mlat n.mlt p.need hgt base extra) (hne : n.mlat ≠ n.mlt) (he : n.evars ++ n.curls = [])
    (hT : S.time.Pairwise (· ≤ ·)) (hN : NondecOn c.times (Cand good rec)) (hc : c.times ≠ [])
    (hno : ¬ NoOverlap c good rec (usedTimes S n p h) tol) : ∃ out, addX L c rec tol S n hgt lc vc h b = .ok (some out) := by
  obtain ⟨e3, e4, e5⟩ := plan_lists hp hv
  obtain ⟨l', hr, f3, f4⟩ := ready hp hs hl hne
  have hdat : dataNames S p.need ≠ [] := by
    obtain ⟨k, k1, k2, -⟩ := hl.used
    exact List.ne_nil_of_mem (List.mem_filter.2 ⟨k1, by simpa using k2⟩)
  refine succeeds L hL hb rec h0 tol htol lc vc h b hp hr f4 hdat (made_plain b e5) (fun t e hes => ?_) hT hN hc hno
  rw [e3, e4, he, e5] at hes
  simp [entryVars] at hes

/-- The variable can be scaled when the times differ and the cells of a time are all used or none is. -/
theorem evar_ok {S : XSet} {n : Names} {p : Plan} {hgt : Height} {l' : Loc} {ds : List Name} (hr : Ready S n p hgt l' ds)
    (hn : ds.Nodup) {h : ℤ} (hh : h = 1 ∨ h = -1) {t : ℕ} {b lc vc : Name} (hd : (timeMask S p.need n.mlat h t).dims = ds) {e : Name}
    (e1 : (S.arr e).dims.Nodup) (e2 : ∀ d ∈ (S.arr e).dims, d ∈ ds) (e3 : (S.arr e).size = (S.arr e).dims.map S.len)
    (e5 : ds.filter (· ∈ (S.arr e).dims) <+: ds) (e6 : e ∈ S.vars ++ S.coords) (htwo : 1 < p.need.length - (p.need.filter (· ∈ S.coords)).length)
    (hT : S.time.Pairwise (· < ·))
    (hfull : ∀ σ τ : Name → ℕ, (∀ d ∈ ds, σ d < S.len d) → (∀ d ∈ ds, τ d < S.len d) → σ S.index = τ S.index →
      Chosen S n.mlat p.need h σ → Chosen S n.mlat p.need h τ) :
    ∃ l, evarAt ⟨S, n, p, b, h, l', lc, vc⟩ t (cellsAt (Ocb.XData.mask S p.need n.mlat h) t) e = .ok l ∧
      l.length = (cellsAt (Ocb.XData.mask S p.need n.mlat h) t).length := by
  set cells := cellsAt (Ocb.XData.mask S p.need n.mlat h) t with hcells
  have htm := fun jx hjx => timeMask_cell hr hn hd (ix := jx) hjx
  have hsz : (timeMask S p.need n.mlat h t).size = ds.map S.len := by
    have : (timeMask S p.need n.mlat h t).size = (timeMask S p.need n.mlat h t).dims.map S.len := rfl
    rw [this, hd]
  obtain ⟨tl, etl⟩ := hr.head
  have hlab : ∀ ix ∈ indices (ds.map S.len), ds.map (fun d => ix.getD (ds.idxOf d) 0) = ix ∧
      (∀ d ∈ ds, ix.getD (ds.idxOf d) 0 < S.len d) ∧ ix.getD (ds.idxOf S.index) 0 = ix.headD 0 ∧ ix.headD 0 < S.time.length := by
    intro ix hix
    obtain ⟨g1, g2⟩ := forall₂_get ((mem_indices _ _).1 hix)
    have hσ : ∀ d ∈ ds, ix.getD (ds.idxOf d) 0 < S.len d := by
      intro d hd
      have hj := List.idxOf_lt_length_of_mem hd
      have := g2 _ (by simpa using hj)
      rwa [List.getD_eq_getElem?_getD (l := ds.map S.len), List.getElem?_map, List.getElem?_eq_getElem hj, List.getElem_idxOf] at this
    have h0 : ix.getD (ds.idxOf S.index) 0 = ix.headD 0 := by
      rw [etl, List.idxOf_cons_self]
      cases ix <;> rfl
    refine ⟨map_getD_idxOf hn (by simpa using g1), hσ, h0, ?_⟩
    rw [← h0, ← hr.times]
    exact hσ _ (by rw [etl]; simp)
  set M := timeMask S p.need n.mlat h t with hM
  have hMwf : M.WF := ⟨by rw [hd]; exact hn, by rw [hsz, hd, List.length_map]⟩
  have hback : ∀ ix ∈ indices M.size, M.val ix = true → ix ∈ cells := by
    intro ix hix hv
    rw [hsz] at hix
    obtain ⟨g1, g2, g3, g4⟩ := hlab ix hix
    have hd' : unify [unify ((dataNames S p.need).map fun k => (S.arr k).dims),
      unify [(Ocb.XData.mask S p.need n.mlat h).dims, [S.index]]] = ds := hd
    rw [hM] at hv
    simp only [timeMask] at hv
    rw [hd', Bool.and_eq_true, Bool.and_eq_true] at hv
    obtain ⟨⟨v1, v2⟩, -⟩ := hv
    have hdims : (Ocb.XData.mask S p.need n.mlat h).dims = ds := hr.mask
    rw [on, hdims, g1] at v1
    rw [g3, beq_iff_eq, List.getElem?_eq_getElem g4] at v2
    obtain ⟨w1, w2⟩ := List.getElem?_eq_some_iff.1 v2.symm
    refine cells_mem.2 ⟨by rw [hr.msize]; exact hix, v1, ?_⟩
    by_contra hne
    rcases lt_or_gt_of_ne hne with hlt | hlt
    · have := List.pairwise_iff_getElem.1 hT _ _ g4 w1 hlt
      omega
    · have := List.pairwise_iff_getElem.1 hT _ _ w1 g4 hlt
      omega
  have hcm : ∀ ix, ix ∈ cells ↔ ix ∈ indices M.size ∧ M.val ix = true := by
    intro ix
    refine ⟨fun hc => ⟨?_, htm ix hc⟩, fun hc => hback ix hc.1 hc.2⟩
    have := (cells_mem.1 hc).1
    rwa [hr.msize, ← hsz] at this
  have hcn : cells.Nodup := (nodup_indices _).filter _
  have hcount : ∀ q : List ℕ → Bool, (∀ ix ∈ indices M.size, q ix = true ↔ ix ∈ cells) →
      ((indices M.size).filter q).length = cells.length := by
    intro q hq
    apply List.Perm.length_eq
    rw [List.perm_ext_iff_of_nodup ((nodup_indices _).filter _) hcn]
    intro ix
    rw [List.mem_filter]
    exact ⟨fun hx => (hq ix hx.1).1 hx.2, fun hx => ⟨((hcm ix).1 hx).1, (hq ix ((hcm ix).1 hx).1).2 hx⟩⟩
  unfold evarAt
  rw [if_neg (fun hx => hx e6)]
  simp only [bind, Except.bind, pure, Except.pure, ← hM]
  split_ifs with hc1
  · by_cases hdims : M.dims = (S.arr e).dims
    · have hs' : M.size = (S.arr e).size := by rw [hsz, e3, ← hdims, hd]
      rw [reshape, if_pos hdims, if_pos hs', whereDrop_eq]
      refine ⟨_, rfl, ?_⟩
      rw [List.length_map, List.length_map]
      apply hcount
      intro ix hix
      rw [decide_eq_true_eq]
      constructor
      · intro hk
        have h0 := hk 0 (by rw [hsz, etl]; simp)
        rw [kept, List.any_eq_true] at h0
        obtain ⟨jx, hjx, hv⟩ := h0
        rw [Bool.and_eq_true, beq_iff_eq] at hv
        have hj := hback jx hjx hv.1
        rw [hsz] at hix hjx
        obtain ⟨g1, g2, g3, g4⟩ := hlab ix hix
        obtain ⟨k1, k2, k3, k4⟩ := hlab jx hjx
        have hj' := hj
        rw [← k1, hcells, hr.mem hh k2] at hj'
        rw [← g1, hcells, hr.mem hh g2]
        have heq : jx.getD (ds.idxOf S.index) 0 = ix.getD (ds.idxOf S.index) 0 := by
          have hz : ds.idxOf S.index = 0 := by rw [etl, List.idxOf_cons_self]
          rw [hz]
          exact hv.2
        exact ⟨hfull _ _ k2 g2 heq hj'.1, by rw [← heq]; exact hj'.2⟩
      · intro hc
        exact kept_of_true M hix ((hcm ix).1 hc).2
    · rw [C92_pad_partial _ _ hMwf ⟨e1, by rw [e3, List.length_map]⟩ hdims (by rw [hd]; exact e2) (by rw [hd]; exact e5)]
      · refine ⟨_, rfl, ?_⟩
        rw [List.length_map, want, List.length_map]
        exact hcount _ fun ix hix => ⟨fun hv => hback ix hix hv, fun hc => htm ix hc⟩
      · have key : ∀ {β : Type} (a : Arr β), a.size = a.dims.map S.len → ∀ d ∈ a.dims, a.sizeOf d = S.len d := by
          intro β a ha d hda
          have hlt := List.idxOf_lt_length_of_mem hda
          rw [Arr.sizeOf, ha, List.getD_eq_getElem?_getD, List.getElem?_map, List.getElem?_eq_getElem hlt, List.getElem_idxOf]
          rfl
        intro d hda
        rw [key ⟨(S.arr e).dims, (S.arr e).size, fun ix => some ((S.arr e).val ix)⟩ e3 d hda, key M (by rw [hsz, hd]) d (by rw [hd]; exact e2 d hda)]
  · exact ⟨_, rfl, by rw [List.length_map]⟩

theorem two_data {S : XSet} {need : List Name} {a b : Name} (hab : a ≠ b) (ha : a ∈ need) (hb : b ∈ need) (ha' : a ∉ S.coords)
    (hb' : b ∉ S.coords) : 1 < need.length - (need.filter (· ∈ S.coords)).length := by
  have h1 := List.length_eq_length_filter_add (l := need) (fun x => decide (x ∈ S.coords))
  have h2 : 2 ≤ (need.filter fun x => !decide (x ∈ S.coords)).length := by
    have ma : a ∈ need.filter fun x => !decide (x ∈ S.coords) := by simp [*]
    have mb : b ∈ need.filter fun x => !decide (x ∈ S.coords) := by simp [*]
    match hf : need.filter fun x => !decide (x ∈ S.coords) with
    | [] => simp [hf] at ma
    | [x] =>
      rw [hf, List.mem_singleton] at ma mb
      exact absurd (ma.trans mb.symm) hab
    | x :: y :: l => simp
  omega

theorem succeeds_full (L : Lib) (hL : Ocb.Pysat.Total L) (hb : IsBoundary c good) (rec : ℤ) (h0 : -1 ≤ rec) (tol : ℤ)
    (htol : 0 ≤ tol) (S : XSet) (n : Names) (hgt : Height) (lc vc : Name) (h : ℤ) (hh : h = 1 ∨ h = -1) (b : Name) (p : Plan)
    (base extra : List Name) (hp : plan (S.vars ++ S.coords) n = .ok p) (hs : Sound S p.need)
    (hl : Layout S n.mlat n.mlt p.need hgt base extra) (hord : InOrder S n.mlt p.need (base ++ extra)) (hne : n.mlat ≠ n.mlt)
    (hmade : ∀ k ∈ Ocb.Pysat.written n p b, k ∈ outKeys b n p)
    (he : ∀ e ∈ p.evars ++ p.curls ++ entryVars S p.vects, e ∈ S.vars ++ S.coords ∧ FitIn S (base ++ extra) e ∧
      ∃ k ∈ p.need, k ∈ S.vars ∧ k ≠ n.mlt)
    (hT : S.time.Pairwise (· < ·))
    (hfull : ∀ σ τ : Name → ℕ, (∀ d ∈ base ++ extra, σ d < S.len d) → (∀ d ∈ base ++ extra, τ d < S.len d) →
      σ S.index = τ S.index → Chosen S n.mlat p.need h σ → Chosen S n.mlat p.need h τ)
    (hN : NondecOn c.times (Cand good rec)) (hc : c.times ≠ [])
    (hno : ¬ NoOverlap c good rec (usedTimes S n p h) tol) : ∃ out, addX L c rec tol S n hgt lc vc h b = .ok (some out) := by
  obtain ⟨rest, e1, e2⟩ := need_eq hp hne
  obtain ⟨l', hr, f3, f4⟩ := ready hp hs hl hne
  have hs' := hs
  have hl' := hl
  have hord' := hord
  rw [e1] at hs' hl' hord'
  have hn := all_nodup hs' hl'
  have hdat : dataNames S p.need ≠ [] := by
    obtain ⟨k, k1, k2, -⟩ := hl.used
    exact List.ne_nil_of_mem (List.mem_filter.2 ⟨k1, by simpa using k2⟩)
  have hltv : n.mlt ∈ S.vars := by
    have hb' := hl.locs
    cases hb' with
    | series v1 v2 d1 d2 => exact v2
    | grid r h1 h2 h3 h4 h5 h6 => exact h2
  refine succeeds L hL hb rec h0 tol htol lc vc h b hp hr f4 hdat hmade (fun t e hes => ?_) (hT.imp fun hx => le_of_lt hx) hN hc hno
  obtain ⟨m1, fe, k, k1, k2, k3⟩ := he e hes
  refine evar_ok hr hn hh ?_ fe.nodup fe.sub fe.size fe.order m1
    (two_data k3.symm (by rw [e1]; simp) k1 (fun hx => hs.apart _ hx hltv) (fun hx => hs.apart _ hx k2)) hT hfull
  rw [e1]
  exact timeMask_dims hs' hl' hord' h _

/-- C211: with increasing times, of which each has all or none of its cells used, records in order that overlap, and a
library without errors, the call with scaled variables gives a result. -/
theorem C211_succeeds (L : Lib) (hL : Ocb.Pysat.Total L) (hb : IsBoundary c good) (rec : ℤ) (h0 : -1 ≤ rec) (tol : ℤ)
    (htol : 0 ≤ tol) (S : XSet) (n : Names) (hgt : Height) (lc vc : Name) (h : ℤ) (hh : h = 1 ∨ h = -1) (b : Name) (p : Plan)
    (base extra : List Name) (hp : plan (S.vars ++ S.coords) n = .ok p) (hv : n.vects = []) (hs : Sound S p.need)
    (hl : Layout S n.mlat n.mlt p.need hgt base extra) (hord : InOrder S n.mlt p.need (base ++ extra))
    (hk : (n.mlat :: n.mlt :: "r_corr".toList :: (n.evars ++ n.curls)).Nodup)
    (he : ∀ e ∈ n.evars ++ n.curls, e ∈ S.vars ∧ S.index ∈ (S.arr e).dims ∧
      (base ++ extra).filter (· ∈ (S.arr e).dims) <+: base ++ extra)
    (hT : S.time.Pairwise (· < ·))
    (hfull : ∀ σ τ : Name → ℕ, (∀ d ∈ base ++ extra, σ d < S.len d) → (∀ d ∈ base ++ extra, τ d < S.len d) →
      σ S.index = τ S.index → Chosen S n.mlat p.need h σ → Chosen S n.mlat p.need h τ)
    (hN : NondecOn c.times (Cand good rec)) (hc : c.times ≠ [])
    (hno : ¬ NoOverlap c good rec (usedTimes S n p h) tol) : ∃ out, addX L c rec tol S n hgt lc vc h b = .ok (some out) := by
  have hne : n.mlat ≠ n.mlt := by
    intro e
    rw [e] at hk
    simp at hk
  obtain ⟨e3, e4, e5⟩ := plan_lists hp hv
  refine succeeds_full L hL hb rec h0 tol htol S n hgt lc vc h hh b p base extra hp hs hl hord hne (made_plain b e5)
    (fun e hes => ?_) hT hfull hN hc hno
  rw [e5] at hes
  have hes' : e ∈ p.evars ++ p.curls := by simpa [entryVars] using hes
  have hen := hes'
  rw [e3, e4] at hen
  obtain ⟨k1, k2, k3⟩ := he e hen
  have hneed := need_mem hp hes' (List.mem_append_left _ k1)
  obtain ⟨rest, e1, e2⟩ := need_eq hp hne
  obtain ⟨l', hr, -, -⟩ := ready hp hs hl hne
  obtain ⟨u1, -, u3⟩ := hs.arr e hneed
  refine ⟨List.mem_append_left _ k1, ⟨u1, hr.sub e hneed, u3, k2, k3⟩, e, hneed, k1, ?_⟩
  rintro rfl
  simp only [List.nodup_cons, List.mem_cons, not_or] at hk
  exact hk.2.1.2 hen

/-- C212: with increasing times, of which each has all or none of its cells used, records in order that overlap, vectors
whose names do not contain `ocb` and are no other names, and a library without errors, the call gives a result. -/
theorem C212_succeeds (L : Lib) (hL : Ocb.Pysat.Total L) (hb : IsBoundary c good) (rec : ℤ) (h0 : -1 ≤ rec) (tol : ℤ)
    (htol : 0 ≤ tol) (S : XSet) (n : Names) (hgt : Height) (lc vc : Name) (h : ℤ) (hh : h = 1 ∨ h = -1) (kind : Ocb.Pysat.Kind) (p : Plan)
    (base extra : List Name) (hp : plan (S.vars ++ S.coords) n = .ok p) (hs : Sound S p.need)
    (hl : Layout S n.mlat n.mlt p.need hgt base extra) (hord : InOrder S n.mlt p.need (base ++ extra)) (hne : n.mlat ≠ n.mlt)
    (hclean : ∀ v ∈ p.vects, Ocb.Pysat.Clean v.1)
    (hoth : ∀ e ∈ [n.mlat, n.mlt, "r_corr".toList] ++ p.evars ++ p.curls, e ∉ p.vects.map Prod.fst)
    (he : ∀ e ∈ p.evars ++ p.curls, e ∈ S.vars ++ S.coords ∧ FitIn S (base ++ extra) e)
    (hx : ∀ v ∈ p.vects, ∀ k ∈ v.2, ∀ x, k.2 = .text x → x ∈ S.vars ++ S.coords → FitIn S (base ++ extra) x)
    (htwo : ∃ k ∈ p.need, k ∈ S.vars ∧ k ≠ n.mlt)
    (hT : S.time.Pairwise (· < ·))
    (hfull : ∀ σ τ : Name → ℕ, (∀ d ∈ base ++ extra, σ d < S.len d) → (∀ d ∈ base ++ extra, τ d < S.len d) →
      σ S.index = τ S.index → Chosen S n.mlat p.need h σ → Chosen S n.mlat p.need h τ)
    (hN : NondecOn c.times (Cand good rec)) (hc : c.times ≠ [])
    (hno : ¬ NoOverlap c good rec (usedTimes S n p h) tol) :
    ∃ out, addX L c rec tol S n hgt lc vc h (Ocb.Pysat.bname kind) = .ok (some out) := by
  refine succeeds_full L hL hb rec h0 tol htol S n hgt lc vc h hh _ p base extra hp hs hl hord hne
    (Ocb.Pysat.written_made kind n p hclean hoth) (fun e hes => ?_) hT hfull hN hc hno
  rcases List.mem_append.1 hes with hes | hes
  · exact ⟨(he e hes).1, (he e hes).2, htwo⟩
  · obtain ⟨v, hv, k, hk, k1, k2⟩ := entryVars_mem.1 hes
    exact ⟨k2, hx v hv k hk e k1 k2, htwo⟩

/-! ## A set with an altitude -/

/-- One time, two latitudes, two altitudes, one local time, and a variable that depends on all, whose dimensions are
given. -/
def exSet (ds : List Name) : XSet where
  index := "t".toList
  time := [0]
  coords := ["t".toList, "lat".toList, "z".toList]
  vars := ["lt".toList, "e".toList]
  arr k :=
    if k = "t".toList then ⟨["t".toList], [1], fun _ => .fin 0⟩
    else if k = "lat".toList then ⟨["lat".toList], [2], fun ix => .fin (70 + ix.getD 0 0)⟩
    else if k = "z".toList then ⟨["z".toList], [2], fun ix => .fin (ix.getD 0 0)⟩
    else if k = "lt".toList then ⟨["t".toList], [1], fun _ => .fin 6⟩
    else ⟨ds, [1, 2, 2], fun ix => .fin (10 * ix.getD 1 0 + ix.getD 2 0)⟩

def exNames : Names := ⟨"lat".toList, "lt".toList, ["e".toList], [], []⟩

def exPlan : Plan := ⟨["e".toList], [], [], ["lat".toList, "lt".toList, "e".toList]⟩

theorem exPlan_eq (ds : List Name) : plan ((exSet ds).vars ++ (exSet ds).coords) exNames = .ok exPlan := by
  change plan (["lt".toList, "e".toList] ++ ["t".toList, "lat".toList, "z".toList]) exNames = .ok exPlan
  decide

theorem exLen (ds : List Name) : (exSet ds).len "t".toList = 1 ∧ (exSet ds).len "lat".toList = 2 ∧ (exSet ds).len "z".toList = 2 := by
  have h1 : ¬ "lat".toList = "t".toList := by decide +kernel
  have h2 : ¬ "z".toList = "t".toList := by decide +kernel
  have h3 : ¬ "z".toList = "lat".toList := by decide +kernel
  refine ⟨?_, ?_, ?_⟩
  · simp only [XSet.len, exSet, if_true, List.headD_cons]
  · simp only [XSet.len, exSet, if_neg h1, if_true, List.headD_cons]
  · simp only [XSet.len, exSet, if_neg h2, if_neg h3, if_true, List.headD_cons]

theorem exArr (ds : List Name) :
    (exSet ds).arr "t".toList = ⟨["t".toList], [1], fun _ => .fin 0⟩ ∧
    (exSet ds).arr "lat".toList = ⟨["lat".toList], [2], fun ix => .fin (70 + ix.getD 0 0)⟩ ∧
    (exSet ds).arr "z".toList = ⟨["z".toList], [2], fun ix => .fin (ix.getD 0 0)⟩ ∧
    (exSet ds).arr "lt".toList = ⟨["t".toList], [1], fun _ => .fin 6⟩ ∧
    (exSet ds).arr "e".toList = ⟨ds, [1, 2, 2], fun ix => .fin (10 * ix.getD 1 0 + ix.getD 2 0)⟩ := by
  have h1 : ¬ "lat".toList = "t".toList := by decide +kernel
  have h2 : ¬ "z".toList = "t".toList := by decide +kernel
  have h3 : ¬ "z".toList = "lat".toList := by decide +kernel
  have h4 : ¬ "lt".toList = "t".toList := by decide +kernel
  have h5 : ¬ "lt".toList = "lat".toList := by decide +kernel
  have h6 : ¬ "lt".toList = "z".toList := by decide +kernel
  have h7 : ¬ "e".toList = "t".toList := by decide +kernel
  have h8 : ¬ "e".toList = "lat".toList := by decide +kernel
  have h9 : ¬ "e".toList = "z".toList := by decide +kernel
  have h10 : ¬ "e".toList = "lt".toList := by decide +kernel
  refine ⟨?_, ?_, ?_, ?_, ?_⟩
  · simp only [exSet, if_true]
  · simp only [exSet, if_neg h1, if_true]
  · simp only [exSet, if_neg h2, if_neg h3, if_true]
  · simp only [exSet, if_neg h4, if_neg h5, if_neg h6, if_true]
  · simp only [exSet, if_neg h7, if_neg h8, if_neg h9, if_neg h10]

theorem exSound (ds : List Name) (hds : ds = ["t".toList, "z".toList, "lat".toList] ∨ ds = ["t".toList, "lat".toList, "z".toList]) :
    Sound (exSet ds) exPlan.need := by
  obtain ⟨l1, l2, l3⟩ := exLen ds
  obtain ⟨a1, a2, a3, a4, a5⟩ := exArr ds
  refine ⟨?_, ?_, ?_, ?_, ?_, ?_⟩
  · change ["t".toList, "lat".toList, "z".toList].Nodup
    decide +kernel
  · change ∀ c ∈ ["t".toList, "lat".toList, "z".toList], c ∉ ["lt".toList, "e".toList]
    decide +kernel
  · change ∀ c ∈ ["t".toList, "lat".toList, "z".toList], _
    intro c hc
    simp only [List.mem_cons, List.not_mem_nil, or_false] at hc
    rcases hc with rfl | rfl | rfl
    · rw [l1, a1]; exact ⟨rfl, rfl⟩
    · rw [l2, a2]; exact ⟨rfl, rfl⟩
    · rw [l3, a3]; exact ⟨rfl, rfl⟩
  · change "t".toList ∈ ["t".toList, "lat".toList, "z".toList]
    decide +kernel
  · exact l1
  · change ∀ k ∈ ["lat".toList, "lt".toList, "e".toList], _
    intro k hk
    change _ ∧ (∀ d ∈ _, d ∈ ["t".toList, "lat".toList, "z".toList]) ∧ _
    simp only [List.mem_cons, List.not_mem_nil, or_false] at hk
    rcases hk with rfl | rfl | rfl
    · rw [a2]; exact ⟨by decide +kernel, by decide +kernel, by simp only [List.map_cons, List.map_nil, l2]⟩
    · rw [a4]; exact ⟨by decide +kernel, by decide +kernel, by simp only [List.map_cons, List.map_nil, l1]⟩
    · rw [a5]
      rcases hds with rfl | rfl
      · exact ⟨by decide +kernel, by decide +kernel, by simp only [List.map_cons, List.map_nil, l1, l2, l3]⟩
      · exact ⟨by decide +kernel, by decide +kernel, by simp only [List.map_cons, List.map_nil, l1, l2, l3]⟩

theorem exLayout (ds : List Name) (hds : ds = ["t".toList, "z".toList, "lat".toList] ∨ ds = ["t".toList, "lat".toList, "z".toList]) (v : V) :
    Layout (exSet ds) exNames.mlat exNames.mlt exPlan.need (.scalar v) ["t".toList, "lat".toList] ["z".toList] := by
  obtain ⟨l1, l2, l3⟩ := exLen ds
  obtain ⟨a1, a2, a3, a4, a5⟩ := exArr ds
  have hf : ds.filter (· ∉ ["t".toList, "lat".toList]) = ["z".toList] := by
    rcases hds with rfl | rfl <;> decide +kernel
  refine ⟨?_, ?_, ?_, ?_, ?_, ?_, ?_⟩
  · have := Base.grid (S := exSet ds) (mlat := "lat".toList) (mlt := "lt".toList) []
      (by change "lat".toList ∈ ["t".toList, "lat".toList, "z".toList]; decide +kernel)
      (by change "lt".toList ∈ ["lt".toList, "e".toList]; decide +kernel)
      (by rw [a4]; rfl) (by rw [a4]; decide +kernel)
      (by rw [a4]; change ["t".toList, "lat".toList, "z".toList].filter (· ∈ ["t".toList]) = ["t".toList]; decide +kernel)
      (by rw [a4, l2]; simp only [List.map_cons, List.map_nil, l1]; decide)
    rw [a4] at this
    exact this
  · change ∀ k ∈ ["lat".toList, "lt".toList, "e".toList], k ∈ ["lt".toList, "e".toList] ∨ k = "lat".toList
    decide +kernel
  · change ∀ k ∈ ["lat".toList, "lt".toList, "e".toList], k ∈ ["lt".toList, "e".toList] → _
    intro k hk hk'
    simp only [List.mem_cons, List.not_mem_nil, or_false] at hk'
    rcases hk' with rfl | rfl
    · rw [a4]; left; decide +kernel
    · rw [a5]; right; exact hf
  · refine ⟨"e".toList, ?_, ?_, ?_⟩
    · change "e".toList ∈ ["lat".toList, "lt".toList, "e".toList]
      decide +kernel
    · change "e".toList ∈ ["lt".toList, "e".toList]
      decide +kernel
    · rw [a5]; exact hf
  · change ["t".toList, "lat".toList, "z".toList].filter (· ∈ ["z".toList]) = ["z".toList]
    decide +kernel
  · intro v _
    simp
  · intro k hk
    simp at hk

theorem isFin_two (a b : ℝ) : isFin (rowMax [.fin a, .fin b]) = true := by
  simp only [rowMax, List.foldl_cons, List.foldl_nil, skipMax]
  by_cases h : a ≤ b <;> simp [h, Fl.le, isFin]

theorem exSide (ds ds' : List Name) {h : ℤ} (hh : h = 1 ∨ h = -1) (ix : List ℕ) :
    signGe (on ((exSet ds).arr "lat".toList) ds' ix) h = true := by
  rw [signGe_iff hh, (exArr ds).2.1]
  refine ⟨by simp [on], fun _ => ?_⟩
  simp only [on, Fl.lt, decide_eq_true_eq]
  positivity

theorem exData (ds : List Name) : dataNames (exSet ds) exPlan.need = ["lt".toList, "e".toList] := by
  change ["lat".toList, "lt".toList, "e".toList].filter (· ∈ ["lt".toList, "e".toList]) = ["lt".toList, "e".toList]
  decide +kernel

theorem exMask (ds : List Name) {h : ℤ} (hh : h = 1 ∨ h = -1) (ix : List ℕ) :
    (mask (exSet ds) exPlan.need exNames.mlat h).val ix = true := by
  obtain ⟨a1, a2, a3, a4, a5⟩ := exArr ds
  simp only [mask]
  rw [exData]
  change isFin (rowMax [if signGe (on ((exSet ds).arr "lat".toList) _ ix) h = true then _ else _,
    if signGe (on ((exSet ds).arr "lat".toList) _ ix) h = true then _ else _]) = true
  rw [if_pos (exSide ds _ hh ix), if_pos (exSide ds _ hh ix), a4, a5]
  exact isFin_two _ _

theorem exCells {m : Arr Bool} (hs : m.size = [1, 2, 2]) (hv : ∀ ix, m.val ix = true) :
    cellsAt m 0 = [[0, 0, 0], [0, 0, 1], [0, 1, 0], [0, 1, 1]] := by
  simp only [cellsAt, hs, hv, Bool.true_and]
  decide

theorem exDrop {α : Type} (a : Arr (Option α)) {m : Arr Bool} (hs : m.size = [1, 2, 2]) (hv : ∀ ix ∈ indices m.size, m.val ix = true) :
    whereDrop a m = [a.val [0, 0, 0], a.val [0, 0, 1], a.val [0, 1, 0], a.val [0, 1, 1]] := by
  rw [whereDrop_eq, List.filter_eq_self.2 fun ix hix => decide_eq_true (kept_of_true m hix (hv ix hix))]
  have hl : indices m.size = [[0, 0, 0], [0, 0, 1], [0, 1, 0], [0, 1, 1]] := by
    rw [hs]
    decide
  rw [hl] at hv ⊢
  simp only [List.map_cons, List.map_nil]
  rw [if_pos (hv _ (by simp)), if_pos (hv _ (by simp)), if_pos (hv _ (by simp)), if_pos (hv _ (by simp))]

/-- The mask of the only time -/
theorem exTimeMask (ds : List Name) (hds : ds = ["t".toList, "z".toList, "lat".toList] ∨ ds = ["t".toList, "lat".toList, "z".toList])
    {h : ℤ} (hh : h = 1 ∨ h = -1) : (timeMask (exSet ds) exPlan.need exNames.mlat h 0).dims = ds ∧
      (timeMask (exSet ds) exPlan.need exNames.mlat h 0).size = [1, 2, 2] ∧
      ∀ ix ∈ indices [1, 2, 2], (timeMask (exSet ds) exPlan.need exNames.mlat h 0).val ix = true := by
  obtain ⟨l1, l2, l3⟩ := exLen ds
  obtain ⟨a1, a2, a3, a4, a5⟩ := exArr ds
  have hmd : (mask (exSet ds) exPlan.need exNames.mlat h).dims = ["t".toList, "lat".toList, "z".toList] := by
    change maskDims (exSet ds) exPlan.need "lat".toList = _
    rw [maskDims, exData]
    simp only [List.map_cons, List.map_nil, a2, a4, a5]
    rcases hds with rfl | rfl <;> decide +kernel
  have hd : (timeMask (exSet ds) exPlan.need exNames.mlat h 0).dims = ds := by
    simp only [timeMask]
    rw [hmd, exData]
    simp only [List.map_cons, List.map_nil, a4, a5]
    change unify [unify [["t".toList], ds], unify [["t".toList, "lat".toList, "z".toList], ["t".toList]]] = ds
    rcases hds with rfl | rfl <;> decide +kernel
  refine ⟨hd, ?_, fun ix hix => ?_⟩
  · have : (timeMask (exSet ds) exPlan.need exNames.mlat h 0).size = (timeMask (exSet ds) exPlan.need exNames.mlat h 0).dims.map (exSet ds).len := rfl
    rw [this, hd]
    rcases hds with rfl | rfl <;> simp only [List.map_cons, List.map_nil, l1, l2, l3]
  · have hd' : unify [unify ((dataNames (exSet ds) exPlan.need).map fun k => ((exSet ds).arr k).dims),
      unify [(mask (exSet ds) exPlan.need exNames.mlat h).dims, [(exSet ds).index]]] = ds := hd
    simp only [timeMask]
    rw [hd', Bool.and_eq_true, Bool.and_eq_true]
    refine ⟨⟨exMask ds hh _, ?_⟩, ?_⟩
    · have h0 : ix.getD (ds.idxOf (exSet ds).index) 0 = 0 := by
        have : ds.idxOf (exSet ds).index = 0 := by
          change ds.idxOf "t".toList = 0
          rcases hds with rfl | rfl <;> decide +kernel
        rw [this]
        revert ix
        decide
      rw [h0]
      simp
    · rw [exData]
      simp only [List.map_cons, List.map_nil, a4, a5]
      exact isFin_two _ _

/-- The values that are scaled: those of the variable in the order of its own dimensions. -/
theorem exEvar (ds : List Name) (hds : ds = ["t".toList, "z".toList, "lat".toList] ∨ ds = ["t".toList, "lat".toList, "z".toList])
    {h : ℤ} (hh : h = 1 ∨ h = -1) (b lc vc : Name) (l' : Loc) (ixs : List (List ℕ)) :
    evarAt ⟨exSet ds, exNames, exPlan, b, h, l', lc, vc⟩ 0 ixs "e".toList = .ok [.fin 0, .fin 1, .fin 10, .fin 11] := by
  obtain ⟨a1, a2, a3, a4, a5⟩ := exArr ds
  obtain ⟨d1, d2, d3⟩ := exTimeMask ds hds hh
  have h1 : datCoords (exSet ds) exPlan.need = ["lat".toList, "t".toList, "z".toList] := by
    change ["lat".toList, "lt".toList, "e".toList].filter (· ∈ ["t".toList, "lat".toList, "z".toList]) ++
      ["t".toList, "lat".toList, "z".toList].filter (fun c => c ∈ ["lat".toList, "lt".toList, "e".toList].flatMap
        (fun k => ((exSet ds).arr k).dims) ∧ c ∉ ["lat".toList, "lt".toList, "e".toList]) = _
    simp only [List.flatMap_cons, List.flatMap_nil, a2, a4, a5]
    rcases hds with rfl | rfl <;> decide +kernel
  have h2 : exPlan.need.filter (· ∈ (exSet ds).coords) = ["lat".toList] := by
    change ["lat".toList, "lt".toList, "e".toList].filter (· ∈ ["t".toList, "lat".toList, "z".toList]) = ["lat".toList]
    decide +kernel
  unfold evarAt
  simp only [h1, h2, List.length_cons, List.length_nil]
  rw [if_neg (by
    rw [not_not]
    change "e".toList ∈ ["lt".toList, "e".toList] ++ ["t".toList, "lat".toList, "z".toList]
    decide +kernel), if_pos (by omega), if_pos (by change 1 < 3 - 1; omega)]
  rw [a5]
  simp only [bind, Except.bind, pure, Except.pure]
  rw [reshape, if_pos d1, if_pos d2, exDrop _ d2 (by rw [d2]; exact d3)]
  simp only [List.map_cons, List.map_nil, Option.getD_some]
  norm_num

/-- C211 fails for a variable whose dimensions come in another order: the cell of the first latitude and the second
altitude, if it is filled, holds the scaled value of the second latitude and the first altitude. -/
theorem C211_order_refuted (L : Lib) (hb : IsBoundary c good) (rec : ℤ) (h0 : -1 ≤ rec) (tol : ℤ) (htol : 0 ≤ tol) (v0 : V)
    (lc vc : Name) (h : ℤ) (hh : h = 1 ∨ h = -1) (b : Name) (σ : Name → ℕ) (h1 : σ "t".toList = 0) (h2 : σ "lat".toList = 0)
    (h3 : σ "z".toList = 1) (out : Name → Arr V)
    (ho : addX L c rec tol (exSet ["t".toList, "z".toList, "lat".toList]) exNames (.scalar v0) lc vc h b = .ok (some out)) :
    cell (exSet ["t".toList, "z".toList, "lat".toList]) "e".toList σ = .fin 10 ∧
    (out (under "e".toList b)).dims = ["t".toList, "lat".toList, "z".toList] ∧
    ((∃ r s v, L.norm r (.fin 70) (.fin 6) v0 = .ok v ∧ L.scale .evar (.fin 1) (L.radius r v.2.2) = .ok s ∧
      (out (under "e".toList b)).val [0, 0, 1] = s) ∨ ∀ k, (out k).val [0, 0, 1] = .nan) := by
  set ds := ["t".toList, "z".toList, "lat".toList] with hds
  have hds' : ds = ["t".toList, "z".toList, "lat".toList] ∨ ds = ["t".toList, "lat".toList, "z".toList] := .inl hds
  obtain ⟨l1, l2, l3⟩ := exLen ds
  obtain ⟨a1, a2, a3, a4, a5⟩ := exArr ds
  have hp := exPlan_eq ds
  obtain ⟨l', hr, f3, f4⟩ := ready hp (exSound ds hds') (exLayout ds hds' v0) (by decide +kernel)
  change Ready _ _ _ _ _ ["t".toList, "lat".toList, "z".toList] at hr
  change Fits _ _ _ _ _ ["t".toList, "lat".toList, "z".toList] at f3
  obtain ⟨o, hout, hcell⟩ := addX_spec L hb rec h0 tol htol hh hp hr (written_plain b rfl (by decide +kernel)) ho
  have hσ : ∀ d ∈ ["t".toList, "lat".toList, "z".toList], σ d < (exSet ds).len d := by
    intro d hd
    simp only [List.mem_cons, List.not_mem_nil, or_false] at hd
    rcases hd with rfl | rfl | rfl <;> omega
  have hmap : ["t".toList, "lat".toList, "z".toList].map σ = [0, 0, 1] := by
    simp only [List.map_cons, List.map_nil, h1, h2, h3]
  have hidx : σ (exSet ds).index = 0 := h1
  have hsz : (mask (exSet ds) exPlan.need exNames.mlat h).size = [1, 2, 2] := by
    rw [hr.msize]
    simp only [List.map_cons, List.map_nil, l1, l2, l3]
  have hcs := exCells hsz (exMask ds hh)
  refine ⟨?_, by rw [hout], ?_⟩
  · rw [cell, a5, hds]
    simp only [List.map_cons, List.map_nil, h1, h2, h3]
    norm_num
  rcases hcell σ hσ with ⟨r, b1, b2, b3, b4, -⟩ | ⟨b1, -⟩
  · left
    rw [hidx] at b4
    obtain ⟨v, v1, -, -, v4⟩ := b4.1 [0, 0, 1] (by
      change [0, 0, 1] ∈ cellsAt (mask (exSet ds) exPlan.need exNames.mlat h) 0
      rw [hcs]
      decide)
    obtain ⟨l, lr, g1, g2, g3⟩ := b4.2.1 .evar _ (.inl ⟨rfl, rfl⟩) "e".toList (by
      change "e".toList ∈ ["e".toList]
      decide +kernel)
    rw [exEvar ds hds' hh] at g1
    simp only [Except.ok.injEq] at g1
    subst g1
    change spread _ (cellsAt (mask (exSet ds) exPlan.need exNames.mlat h) 0).length = .ok lr at g2
    rw [hcs] at g2
    simp only [spread, List.length_cons, List.length_nil, if_true, Except.ok.injEq] at g2
    subst g2
    obtain ⟨s, s1, s2⟩ := g3 1 [0, 0, 1] (.fin 1) (by
      change (cellsAt (mask (exSet ds) exPlan.need exNames.mlat h) 0)[1]? = _
      rw [hcs]
      rfl) rfl
    obtain ⟨w1, w2, w3⟩ := f3.vals σ hσ
    have hhz : l'.height.size = ["t".toList, "lat".toList, "z".toList].map (exSet ds).len := by
      rcases f3.height with hz | ⟨hz, -⟩
      · exact hz
      · exact absurd hz f4
    have w3' := w3 hhz
    rw [hmap] at w1 w2 w3'
    change L.norm r (l'.lat.val [0, 0, 1]) (l'.lt.val [0, 0, 1]) (l'.height.val [0, 0, 1]) = .ok v at v1
    rw [w1, w2, w3'] at v1
    refine ⟨r, s, v, ?_, ?_, by rw [hout]; exact s2⟩
    · have c1 : cell (exSet ds) exNames.mlat σ = .fin 70 := by
        change cell (exSet ds) "lat".toList σ = _
        rw [cell, a2]
        simp only [List.map_cons, List.map_nil, h2]
        norm_num
      have c2 : cell (exSet ds) exNames.mlt σ = .fin 6 := by
        change cell (exSet ds) "lt".toList σ = _
        rw [cell, a4]
      rw [← c1, ← c2]
      exact v1
    · rw [← v4]
      exact s1
  · right
    intro k
    rw [hout, ← hmap]
    exact b1 k

theorem exOne (k t : ℤ) (h : At [0] k t) : k = 0 ∧ t = 0 := by
  obtain ⟨hk, ht⟩ := h
  match hk' : k.toNat, ht with
  | 0, ht => simp at ht; omega
  | m + 1, ht => simp at ht

/-- Facts about the set with the dimensions in order -/
theorem exFacts (ds : List Name) (hds : ds = ["t".toList, "lat".toList, "z".toList]) :
    NondecOn (dualCycler [0]).times (Cand (fun _ => True) 0) ∧
    InOrder (exSet ds) exNames.mlt exPlan.need (["t".toList, "lat".toList] ++ ["z".toList]) ∧
    (∀ σ, Chosen (exSet ds) exNames.mlat exPlan.need 1 σ) ∧
    (∀ σ : Name → ℕ, σ "t".toList = 0 → σ "lat".toList < 2 → σ "z".toList < 2 →
      ∀ d ∈ ["t".toList, "lat".toList] ++ ["z".toList], σ d < (exSet ds).len d) ∧
    (usedTimes (exSet ds) exNames exPlan 1)[0]? = some 0 ∧
    (exSet ds).index ∈ ((exSet ds).arr "e".toList).dims ∧
    (["t".toList, "lat".toList] ++ ["z".toList]).filter (· ∈ ((exSet ds).arr "e".toList).dims) <+: ["t".toList, "lat".toList] ++ ["z".toList] := by
  have hds' : ds = ["t".toList, "z".toList, "lat".toList] ∨ ds = ["t".toList, "lat".toList, "z".toList] := .inr hds
  have hb : IsBoundary (dualCycler [0]) (fun _ => True) := .dual [0] (by simp)
  have hN : NondecOn (dualCycler [0]).times (Cand (fun _ => True) 0) := by
    intro a b s t _ _ _ hs ht
    have := exOne a s hs
    have := exOne b t ht
    omega
  obtain ⟨l1, l2, l3⟩ := exLen ds
  obtain ⟨a1, a2, a3, a4, a5⟩ := exArr ds
  have hvars : ∀ k ∈ exPlan.need, k ∈ (exSet ds).vars → k = "lt".toList ∨ k = "e".toList := by
    intro k _ hk
    change k ∈ ["lt".toList, "e".toList] at hk
    simpa using hk
  have hord : InOrder (exSet ds) exNames.mlt exPlan.need (["t".toList, "lat".toList] ++ ["z".toList]) := by
    intro k hk hk'
    rcases hvars k hk hk' with rfl | rfl
    · change ((exSet ds).arr "lt".toList).dims.filter (· ∉ ((exSet ds).arr "lt".toList).dims) <+: _
      rw [List.filter_eq_nil_iff.2 (by simp)]
      exact List.nil_prefix
    · change _ <+: ["t".toList, "lat".toList, "z".toList].filter (· ∉ ((exSet ds).arr "lt".toList).dims)
      change ((exSet ds).arr "e".toList).dims.filter (· ∉ ((exSet ds).arr "lt".toList).dims) <+: _
      rw [a4, a5, hds]
  have hch : ∀ σ, Chosen (exSet ds) exNames.mlat exPlan.need 1 σ := by
    intro σ
    have c2 : cell (exSet ds) "lt".toList σ = .fin 6 := by
      rw [cell, a4]
    refine ⟨?_, ⟨"lt".toList, ?_, ?_, 6, c2⟩, ?_⟩
    · change Side 1 (cell (exSet ds) "lat".toList σ)
      rw [cell, a2]
      refine ⟨by simp, fun _ => ?_⟩
      simp only [Fl.lt, decide_eq_true_eq]
      positivity
    · change "lt".toList ∈ ["lat".toList, "lt".toList, "e".toList]
      decide +kernel
    · change "lt".toList ∈ ["lt".toList, "e".toList]
      decide +kernel
    · intro k hk hk'
      rcases hvars k hk hk' with rfl | rfl
      · rw [c2]; simp
      · rw [cell, a5]; simp
  have hp := exPlan_eq ds
  obtain ⟨l', hr, -⟩ := ready hp (exSound ds hds') (exLayout ds hds' (.fin 0)) (by decide +kernel)
  have hin : ∀ σ : Name → ℕ, σ "t".toList = 0 → σ "lat".toList < 2 → σ "z".toList < 2 →
      ∀ d ∈ ["t".toList, "lat".toList] ++ ["z".toList], σ d < (exSet ds).len d := by
    intro σ s1 s2 s3 d hd
    simp only [List.cons_append, List.nil_append, List.mem_cons, List.not_mem_nil, or_false] at hd
    rcases hd with rfl | rfl | rfl <;> omega
  have hus : (0 : ℤ) ∈ usedTimes (exSet ds) exNames exPlan 1 := by
    rw [usedTimes_mem hr (by decide +kernel) (.inl rfl)]
    exact ⟨fun _ => 0, hin _ rfl (by omega) (by omega), hch _, rfl⟩
  have hall : ∀ x ∈ usedTimes (exSet ds) exNames exPlan 1, x = 0 := by
    intro x hx
    rw [usedTimes_mem hr (by decide +kernel) (.inl rfl)] at hx
    obtain ⟨σ, -, -, hx⟩ := hx
    have := List.mem_of_getElem? hx
    exact List.mem_singleton.1 this
  have hus0 : (usedTimes (exSet ds) exNames exPlan 1)[0]? = some 0 := by
    match hu : usedTimes (exSet ds) exNames exPlan 1 with
    | [] => rw [hu] at hus; simp at hus
    | x :: l => rw [hall x (by rw [hu]; simp)]; rfl
  refine ⟨hN, hord, hch, hin, hus0, ?_, ?_⟩
  · rw [a5, hds]
    change "t".toList ∈ ["t".toList, "lat".toList, "z".toList]
    decide +kernel
  · rw [a5, hds]
    decide +kernel

/-- The hypotheses of C210 and C211 hold for this set and one boundary record at its time: for a variable whose dimensions
are in order, each cell holds the value of its own labels, for a library that changes nothing. -/
example : ∃ out, addX Ocb.Pysat.exLib (dualCycler [0]) 0 60 (exSet ["t".toList, "lat".toList, "z".toList]) exNames
    (.scalar (.fin 0)) [] [] 1 "ocb".toList = .ok (some out) ∧
    (out (under "e".toList "ocb".toList)).val [0, 0, 1] = .fin 1 ∧ (out (under "e".toList "ocb".toList)).val [0, 1, 0] = .fin 10 := by
  set ds := ["t".toList, "lat".toList, "z".toList] with hds
  have hds' : ds = ["t".toList, "z".toList, "lat".toList] ∨ ds = ["t".toList, "lat".toList, "z".toList] := .inr hds
  have hb : IsBoundary (dualCycler [0]) (fun _ => True) := .dual [0] (by simp)
  obtain ⟨hN, hord, hch, hin, hus0, fe1, fe2⟩ := exFacts ds hds
  obtain ⟨a1, a2, a3, a4, a5⟩ := exArr ds
  have hp := exPlan_eq ds
  have he : ∀ e ∈ exNames.evars ++ exNames.curls, e ∈ (exSet ds).vars ∧ (exSet ds).index ∈ ((exSet ds).arr e).dims ∧
      (["t".toList, "lat".toList] ++ ["z".toList]).filter (· ∈ ((exSet ds).arr e).dims) <+: ["t".toList, "lat".toList] ++ ["z".toList] := by
    intro e hes
    change e ∈ ["e".toList] at hes
    rw [List.mem_singleton] at hes
    subst hes
    refine ⟨?_, fe1, fe2⟩
    change "e".toList ∈ ["lt".toList, "e".toList]
    decide +kernel
  obtain ⟨out, ho⟩ := C211_succeeds Ocb.Pysat.exLib ⟨fun _ _ _ _ => ⟨_, rfl⟩, fun _ _ _ _ _ => ⟨_, rfl⟩, fun _ _ _ => ⟨_, rfl⟩⟩ hb 0
    (by decide) 60 (by decide) (exSet ds) exNames (.scalar (.fin 0)) [] [] 1 (.inl rfl) "ocb".toList exPlan _ _ hp rfl (exSound ds hds')
    (exLayout ds hds' _) hord (by decide +kernel) he (by simp [exSet]) (fun _ τ _ _ _ _ => hch τ) hN (by simp [dualCycler]) (by
      rintro ⟨-, ⟨hx, -⟩ | ⟨-, hx⟩⟩
      · omega
      · have := hx 0 0 0 ⟨le_rfl, rfl⟩ ⟨le_rfl, .inl rfl⟩ hus0
        omega)
  have hval := fun σ hσ => C211_scaled_partial Ocb.Pysat.exLib hb 0 (by decide) 60 (by decide) (exSet ds) exNames (.scalar (.fin 0)) [] [] 1
    (.inl rfl) "ocb".toList exPlan _ _ hp (exSound ds hds') (exLayout ds hds' _) hord (by decide +kernel) he out ho σ hσ
  have hrec := C210_cells_partial Ocb.Pysat.exLib hb 0 (by decide) 60 (by decide) (exSet ds) exNames (.scalar (.fin 0)) [] [] 1
    (.inl rfl) "ocb".toList exPlan _ _ hp (exSound ds hds') (exLayout ds hds' _) (by decide +kernel) out ho
  have key : ∀ σ : Name → ℕ, σ "t".toList = 0 → σ "lat".toList < 2 → σ "z".toList < 2 →
      (out (under "e".toList "ocb".toList)).val [σ "t".toList, σ "lat".toList, σ "z".toList] = cell (exSet ds) "e".toList σ := by
    intro σ s1 s2 s3
    have hσ := hin σ s1 s2 s3
    rcases hval σ hσ with ⟨r, v, -, -, -, -, -, hev, -⟩ | hnan
    · obtain ⟨s, q1, q2⟩ := hev "e".toList (by change "e".toList ∈ ["e".toList]; decide +kernel)
      have : cell (exSet ds) "e".toList σ = s := by
        have q1' : Except.ok (cell (exSet ds) "e".toList σ) = (Except.ok s : Except PyErr V) := q1
        simpa using q1'
      rw [this]
      exact q2
    · exfalso
      rcases hrec.2 σ hσ with ⟨r, v, -, -, -, hv, -, -, hv3, -⟩ | ⟨-, hc⟩
      · have hv' : (cell (exSet ds) exNames.mlat σ, cell (exSet ds) exNames.mlt σ, (.fin 0 : V)) = v := by
          have hv' : Except.ok (cell (exSet ds) exNames.mlat σ, cell (exSet ds) exNames.mlt σ, (.fin 0 : V)) =
            (Except.ok v : Except PyErr (V × V × V)) := hv
          simpa using hv'
        rw [hnan, ← hv'] at hv3
        simp at hv3
      · refine hc (by change [(0 : ℤ)].Pairwise (· ≤ ·); simp) hN (hch σ) 0 ⟨le_rfl, .inl rfl⟩ ⟨0, 0, ?_, ⟨le_rfl, rfl⟩, by simp⟩
        change [(0 : ℤ)][σ "t".toList]? = some 0
        rw [s1]
        rfl
  have n1 : ¬ "lat".toList = "t".toList := by decide +kernel
  have n2 : ¬ "z".toList = "t".toList := by decide +kernel
  have n3 : ¬ "z".toList = "lat".toList := by decide +kernel
  have n4 : ¬ "t".toList = "z".toList := by decide +kernel
  have n5 : ¬ "lat".toList = "z".toList := by decide +kernel
  have n6 : ¬ "t".toList = "lat".toList := by decide +kernel
  refine ⟨out, ho, ?_, ?_⟩
  · have := key (fun d => if d = "z".toList then 1 else 0) (by simp only [if_neg n4]) (by simp only [if_neg n5]; omega)
      (by simp only [if_true]; omega)
    rw [cell, a5, hds] at this
    simp only [List.map_cons, List.map_nil, if_neg n4, if_neg n5, if_true] at this
    rw [this]
    norm_num
  · have := key (fun d => if d = "lat".toList then 1 else 0) (by simp only [if_neg n6]) (by simp only [if_true]; omega)
      (by simp only [if_neg n3]; omega)
    rw [cell, a5, hds] at this
    simp only [List.map_cons, List.map_nil, if_neg n6, if_neg n3, if_true] at this
    rw [this]
    norm_num

/-! ## A vector in this set -/

def exVNames : Names :=
  ⟨"lat".toList, "lt".toList, [], [], [("v".toList, [("vect_n".toList, .text "e".toList), ("scale_func".toList, .fn .evar)])]⟩

def exVPlan : Plan :=
  ⟨[], [], [("v".toList, [("vect_n".toList, .text "e".toList), ("scale_func".toList, .fn .evar)])],
    ["lat".toList, "lt".toList, "e".toList]⟩

theorem exVPlan_eq (ds : List Name) : plan ((exSet ds).vars ++ (exSet ds).coords) exVNames = .ok exVPlan := by
  change plan (["lt".toList, "e".toList] ++ ["t".toList, "lat".toList, "z".toList]) exVNames = .ok exVPlan
  decide +kernel

/-- The dictionary of the vector -/
theorem exInits (t : Ocb.Pysat.Table) (i : ℕ) (d : Ocb.Pysat.Init) (ht : "e".toList ∈ t.vars) :
    ∃ d', Ocb.Pysat.inits t i d exVPlan.vects = [("v".toList, d')] ∧ d' "vect_n".toList = some (.num (t.cell "e".toList i)) := by
  refine ⟨_, rfl, ?_⟩
  have h1 : ¬ "vect_n".toList = "scale_func".toList := by decide +kernel
  simp only [List.foldl_cons, List.foldl_nil, Ocb.Pysat.setInit, if_neg h1, if_true, if_pos ht]

/-- A library that gives the northward component as the value of each attribute -/
def exVLib : Lib :=
  ⟨fun _ x y _ => .ok (x, y, .fin 0), fun _ _ _ _ d => .ok fun _ => match d "vect_n".toList with
    | some (.num x) => x
    | _ => .nan, fun _ x => x, fun _ x _ => .ok x⟩

/-- C212 fails for a component whose dimensions come in another order: the cell of the first latitude and the second
altitude, if it is filled, holds what the computation gives for the component of the second latitude and the first
altitude. -/
theorem C212_order_refuted (L : Lib) (hb : IsBoundary c good) (rec : ℤ) (h0 : -1 ≤ rec) (tol : ℤ) (htol : 0 ≤ tol) (v0 : V)
    (lc vc : Name) (h : ℤ) (hh : h = 1 ∨ h = -1) (kind : Ocb.Pysat.Kind) (σ : Name → ℕ) (h1 : σ "t".toList = 0) (h2 : σ "lat".toList = 0)
    (h3 : σ "z".toList = 1) (out : Name → Arr V)
    (ho : addX L c rec tol (exSet ["t".toList, "z".toList, "lat".toList]) exVNames (.scalar v0) lc vc h (Ocb.Pysat.bname kind) =
      .ok (some out)) :
    cell (exSet ["t".toList, "z".toList, "lat".toList]) "e".toList σ = .fin 10 ∧
    ((∃ r d f, d "vect_n".toList = some (.num (.fin 1)) ∧ L.vect r 0 (.fin 70) (.fin 6) d = .ok f ∧
      ∀ a ∈ attrs, (out (keySet (Ocb.Pysat.bname kind) "v".toList a)).val [0, 0, 1] = f a) ∨ ∀ k, (out k).val [0, 0, 1] = .nan) := by
  set ds := ["t".toList, "z".toList, "lat".toList] with hds
  have hds' : ds = ["t".toList, "z".toList, "lat".toList] ∨ ds = ["t".toList, "lat".toList, "z".toList] := .inl hds
  obtain ⟨l1, l2, l3⟩ := exLen ds
  obtain ⟨a1, a2, a3, a4, a5⟩ := exArr ds
  have hp := exVPlan_eq ds
  obtain ⟨l', hr, f3, f4⟩ := ready hp (exSound ds hds') (exLayout ds hds' v0) (by decide +kernel)
  change Ready _ _ _ _ _ ["t".toList, "lat".toList, "z".toList] at hr
  change Fits _ _ _ _ _ ["t".toList, "lat".toList, "z".toList] at f3
  obtain ⟨o, hout, hcell⟩ := addX_spec L hb rec h0 tol htol hh hp hr (by cases kind <;> decide +kernel) ho
  have hσ : ∀ d ∈ ["t".toList, "lat".toList, "z".toList], σ d < (exSet ds).len d := by
    intro d hd
    simp only [List.mem_cons, List.not_mem_nil, or_false] at hd
    rcases hd with rfl | rfl | rfl <;> omega
  have hmap : ["t".toList, "lat".toList, "z".toList].map σ = [0, 0, 1] := by
    simp only [List.map_cons, List.map_nil, h1, h2, h3]
  have hidx : σ (exSet ds).index = 0 := h1
  have hsz : (mask (exSet ds) exPlan.need exNames.mlat h).size = [1, 2, 2] := by
    change (mask (exSet ds) exVPlan.need exVNames.mlat h).size = [1, 2, 2]
    rw [hr.msize]
    simp only [List.map_cons, List.map_nil, l1, l2, l3]
  have hcs := exCells hsz (exMask ds hh)
  refine ⟨?_, ?_⟩
  · rw [cell, a5, hds]
    simp only [List.map_cons, List.map_nil, h1, h2, h3]
    norm_num
  rcases hcell σ hσ with ⟨r, b1, b2, b3, b4, -⟩ | ⟨b1, -⟩
  · left
    rw [hidx] at b4
    obtain ⟨lists, g1, g2⟩ := b4.2.2
    change vectLists _ 0 (cellsAt (mask (exSet ds) exPlan.need exNames.mlat h) 0)
      (cellsAt (mask (exSet ds) exPlan.need exNames.mlat h) 0).length = .ok lists at g1
    have hem : "e".toList ∈ (exSet ds).vars ++ (exSet ds).coords := by
      change "e".toList ∈ ["lt".toList, "e".toList] ++ ["t".toList, "lat".toList, "z".toList]
      decide +kernel
    have hent : entryVars (exSet ds) exVPlan.vects = ["e".toList] := by
      simp only [entryVars, exVPlan, List.flatMap_cons, List.flatMap_nil, List.filterMap_cons, List.filterMap_nil, if_pos hem,
        List.append_nil]
    have hlists : lists = [("e".toList, [.fin 0, .fin 1, .fin 10, .fin 11])] := by
      simp only [vectLists, hent, mapE] at g1
      have hev : evarAt ⟨exSet ds, exVNames, exVPlan, Ocb.Pysat.bname kind, h, l', lc, vc⟩ 0
          (cellsAt (mask (exSet ds) exPlan.need exNames.mlat h) 0) "e".toList = .ok [.fin 0, .fin 1, .fin 10, .fin 11] :=
        exEvar ds hds' hh (Ocb.Pysat.bname kind) lc vc l' _
      rw [hev, hcs] at g1
      simp only [bind, Except.bind, pure, Except.pure, List.length_cons, List.length_nil, if_true, Except.ok.injEq] at g1
      exact g1.symm
    obtain ⟨d', i1, i2⟩ := exInits (cellTable (exSet ds) lists) 1 (Ocb.Pysat.default (o (under exVNames.mlat (Ocb.Pysat.bname kind)) [0, 0, 1])
      (o (under exVNames.mlt (Ocb.Pysat.bname kind)) [0, 0, 1]) (o (under "r_corr".toList (Ocb.Pysat.bname kind)) [0, 0, 1])
      (l'.height.val [0, 0, 1]) lc vc) hem
    obtain ⟨f, k1, k2⟩ := g2 1 [0, 0, 1] (by
      change (cellsAt (mask (exSet ds) exPlan.need exNames.mlat h) 0)[1]? = _
      rw [hcs]
      rfl) ("v".toList, d') (by
      change _ ∈ Ocb.Pysat.inits _ _ _ exVPlan.vects
      rw [i1]
      exact List.mem_singleton.2 rfl)
    obtain ⟨w1, w2, w3⟩ := f3.vals σ hσ
    rw [hmap] at w1 w2
    have c1 : cell (exSet ds) exVNames.mlat σ = .fin 70 := by
      change cell (exSet ds) "lat".toList σ = _
      rw [cell, a2]
      simp only [List.map_cons, List.map_nil, h2]
      norm_num
    have c2 : cell (exSet ds) exVNames.mlt σ = .fin 6 := by
      change cell (exSet ds) "lt".toList σ = _
      rw [cell, a4]
    change L.vect r 0 (l'.lat.val [0, 0, 1]) (l'.lt.val [0, 0, 1]) d' = .ok f at k1
    rw [w1, w2, c1, c2] at k1
    refine ⟨r, d', f, ?_, k1, fun a ha => by rw [hout]; exact k2 a ha⟩
    rw [i2, hlists]
    have : List.lookup "e".toList [("e".toList, [(.fin 0 : V), .fin 1, .fin 10, .fin 11])] = some [.fin 0, .fin 1, .fin 10, .fin 11] := by
      rw [List.lookup_cons, beq_self_eq_true]
    simp only [cellTable, this, Option.getD_some]
    rfl
  · right
    intro k
    rw [hout, ← hmap]
    exact b1 k

/-- The hypotheses of C212 hold for this set: for a component whose dimensions are in order, each cell is filled with what
the library gives for the component of its own labels. -/
example : ∃ out, addX exVLib (dualCycler [0]) 0 60 (exSet ["t".toList, "lat".toList, "z".toList]) exVNames
    (.scalar (.fin 0)) [] [] 1 (Ocb.Pysat.bname .ocb) = .ok (some out) ∧
    (out (keySet "ocb".toList "v".toList "ocb_n".toList)).val [0, 0, 1] = .fin 1 ∧
    (out (keySet "ocb".toList "v".toList "ocb_n".toList)).val [0, 1, 0] = .fin 10 := by
  set ds := ["t".toList, "lat".toList, "z".toList] with hds
  have hds' : ds = ["t".toList, "z".toList, "lat".toList] ∨ ds = ["t".toList, "lat".toList, "z".toList] := .inr hds
  have hb : IsBoundary (dualCycler [0]) (fun _ => True) := .dual [0] (by simp)
  obtain ⟨hN, hord, hch, hin, hus0, fe1, fe2⟩ := exFacts ds hds
  obtain ⟨a1, a2, a3, a4, a5⟩ := exArr ds
  have hp := exVPlan_eq ds
  have hs : Sound (exSet ds) exVPlan.need := exSound ds hds'
  have hl : Layout (exSet ds) exVNames.mlat exVNames.mlt exVPlan.need (.scalar (.fin 0)) ["t".toList, "lat".toList] ["z".toList] :=
    exLayout ds hds' _
  have hne : exVNames.mlat ≠ exVNames.mlt := by decide +kernel
  obtain ⟨l', hr, -⟩ := ready hp hs hl hne
  have hem : "e".toList ∈ (exSet ds).vars := by
    change "e".toList ∈ ["lt".toList, "e".toList]
    decide +kernel
  have hneed : "e".toList ∈ exVPlan.need := by
    change "e".toList ∈ ["lat".toList, "lt".toList, "e".toList]
    decide +kernel
  have hfit : FitIn (exSet ds) (["t".toList, "lat".toList] ++ ["z".toList]) "e".toList := by
    obtain ⟨u1, -, u3⟩ := hs.arr _ hneed
    exact ⟨u1, hr.sub _ hneed, u3, fe1, fe2⟩
  have hx : ∀ v ∈ exVPlan.vects, ∀ k ∈ v.2, ∀ x, k.2 = .text x → x ∈ (exSet ds).vars ++ (exSet ds).coords →
      FitIn (exSet ds) (["t".toList, "lat".toList] ++ ["z".toList]) x := by
    intro v hv k hk x hkx _
    rw [exVPlan, List.mem_singleton] at hv
    subst hv
    simp only [List.mem_cons, List.not_mem_nil, or_false] at hk
    rcases hk with rfl | rfl
    · simp only [Arg.text.injEq] at hkx
      rw [← hkx]
      exact hfit
    · simp at hkx
  have hclean : ∀ v ∈ exVPlan.vects, Ocb.Pysat.Clean v.1 := by
    intro v hv
    rw [exVPlan, List.mem_singleton] at hv
    subst hv
    change ¬ ['o', 'c', 'b'] <:+: "v".toList
    decide +kernel
  obtain ⟨out, ho⟩ := C212_succeeds exVLib ⟨fun _ _ _ _ => ⟨_, rfl⟩, fun _ _ _ _ _ => ⟨_, rfl⟩, fun _ _ _ => ⟨_, rfl⟩⟩ hb 0
    (by decide) 60 (by decide) (exSet ds) exVNames (.scalar (.fin 0)) [] [] 1 (.inl rfl) .ocb exVPlan _ _ hp hs hl hord hne hclean
    (by decide +kernel) (by simp [exVPlan]) hx ⟨"e".toList, hneed, hem, by decide +kernel⟩ (by simp [exSet])
    (fun _ τ _ _ _ _ => hch τ) hN (by simp [dualCycler]) (by
      rintro ⟨-, ⟨hx, -⟩ | ⟨-, hx⟩⟩
      · omega
      · have := hx 0 0 0 ⟨le_rfl, rfl⟩ ⟨le_rfl, .inl rfl⟩ hus0
        omega)
  have hval := C212_vectors_partial exVLib hb 0 (by decide) 60 (by decide) (exSet ds) exVNames (.scalar (.fin 0)) [] [] 1
    (.inl rfl) (Ocb.Pysat.bname .ocb) exVPlan _ _ hp hs hl hord (by decide +kernel) hx out ho
  have hrec := C210_cells_partial exVLib hb 0 (by decide) 60 (by decide) (exSet ds) exVNames (.scalar (.fin 0)) [] [] 1
    (.inl rfl) (Ocb.Pysat.bname .ocb) exVPlan _ _ hp hs hl (by decide +kernel) out ho
  have key : ∀ σ : Name → ℕ, σ "t".toList = 0 → σ "lat".toList < 2 → σ "z".toList < 2 →
      (out (keySet "ocb".toList "v".toList "ocb_n".toList)).val [σ "t".toList, σ "lat".toList, σ "z".toList] = cell (exSet ds) "e".toList σ := by
    intro σ s1 s2 s3
    have hσ := hin σ s1 s2 s3
    rcases hval σ hσ with ⟨r, v, -, -, -, -, -, hev⟩ | hnan
    · obtain ⟨d', i1, i2⟩ := exInits (rowAt (exSet ds) σ) 0 (Ocb.Pysat.default v.1 v.2.1 v.2.2
        (heightAt (exSet ds) (.scalar (.fin 0)) σ) [] []) (List.mem_append_left _ hem)
      obtain ⟨f, q1, q2⟩ := hev ("v".toList, d') (by
        rw [i1]
        exact List.mem_singleton.2 rfl)
      have q3 := q2 "ocb_n".toList (by simp [attrs])
      have q1' : (fun _ => match d' "vect_n".toList with
          | some (.num x) => x
          | _ => .nan : Name → V) = f := by
        have : (Except.ok (fun _ => match d' "vect_n".toList with
          | some (.num x) => x
          | _ => .nan) : Except PyErr (Name → V)) = .ok f := q1
        simpa only [Except.ok.injEq] using this
      rw [← q1', i2] at q3
      exact q3
    · exfalso
      rcases hrec.2 σ hσ with ⟨r, v, -, -, -, hv, -, -, hv3, -⟩ | ⟨-, hc⟩
      · have hv' : (cell (exSet ds) exNames.mlat σ, cell (exSet ds) exNames.mlt σ, (.fin 0 : V)) = v := by
          have hv' : Except.ok (cell (exSet ds) exNames.mlat σ, cell (exSet ds) exNames.mlt σ, (.fin 0 : V)) =
            (Except.ok v : Except PyErr (V × V × V)) := hv
          simpa using hv'
        rw [hnan, ← hv'] at hv3
        simp at hv3
      · refine hc (by change [(0 : ℤ)].Pairwise (· ≤ ·); simp) hN (hch σ) 0 ⟨le_rfl, .inl rfl⟩ ⟨0, 0, ?_, ⟨le_rfl, rfl⟩, by simp⟩
        change [(0 : ℤ)][σ "t".toList]? = some 0
        rw [s1]
        rfl
  have n1 : ¬ "lat".toList = "t".toList := by decide +kernel
  have n2 : ¬ "z".toList = "t".toList := by decide +kernel
  have n3 : ¬ "z".toList = "lat".toList := by decide +kernel
  have n4 : ¬ "t".toList = "z".toList := by decide +kernel
  have n5 : ¬ "lat".toList = "z".toList := by decide +kernel
  have n6 : ¬ "t".toList = "lat".toList := by decide +kernel
  refine ⟨out, ho, ?_, ?_⟩
  · have := key (fun d => if d = "z".toList then 1 else 0) (by simp only [if_neg n4]) (by simp only [if_neg n5]; omega)
      (by simp only [if_true]; omega)
    rw [cell, a5, hds] at this
    simp only [List.map_cons, List.map_nil, if_neg n4, if_neg n5, if_true] at this
    rw [this]
    norm_num
  · have := key (fun d => if d = "lat".toList then 1 else 0) (by simp only [if_neg n6]) (by simp only [if_true]; omega)
      (by simp only [if_neg n3]; omega)
    rw [cell, a5, hds] at this
    simp only [List.map_cons, List.map_nil, if_neg n6, if_neg n3, if_true] at this
    rw [this]
    norm_num

/-- For a vector `docb` and a `DualBoundary` the northward result is written under a name that was not made:
`C212_names_refuted` applies. -/
example (L : Lib) (c : Cycler) (rec tol : ℤ) (ds lc vc : Name) (hgt : Height) (h : ℤ) (out : Name → Arr V) (k : Name) (ix : List ℕ)
    (ho : addX L c rec tol (exSet [ds]) ⟨"lat".toList, "lt".toList, [], [], [("docb".toList,
      [("vect_n".toList, .text "e".toList), ("scale_func".toList, .fn .evar)])]⟩ hgt lc vc h (Ocb.Pysat.bname .dual) = .ok (some out)) :
    (out k).val ix = .nan :=
  C212_names_refuted L rec tol (exSet [ds]) _ hgt lc vc h _ ⟨[], [], [("docb".toList,
    [("vect_n".toList, .text "e".toList), ("scale_func".toList, .fn .evar)])], ["lat".toList, "lt".toList, "e".toList]⟩ (by
      change plan (["lt".toList, "e".toList] ++ ["t".toList, "lat".toList, "z".toList]) _ = .ok _
      decide +kernel) (keySet "dualb".toList "docb".toList "ocb_n".toList) (by decide +kernel) (by decide +kernel) out ho k ix

/-! ## As many latitudes as times -/

/-- Two times and two latitudes -/
def sqSet : XSet where
  index := "t".toList
  time := [0, 60]
  coords := ["t".toList, "lat".toList]
  vars := ["lt".toList]
  arr k :=
    if k = "t".toList then ⟨["t".toList], [2], fun _ => .fin 0⟩
    else if k = "lat".toList then ⟨["lat".toList], [2], fun ix => .fin (70 + ix.getD 0 0)⟩
    else ⟨["t".toList], [2], fun _ => .fin 6⟩

def sqNames : Names := ⟨"lat".toList, "lt".toList, [], [], []⟩

def sqPlan : Plan := ⟨[], [], [], ["lat".toList, "lt".toList]⟩

theorem sqArr : sqSet.arr "t".toList = ⟨["t".toList], [2], fun _ => .fin 0⟩ ∧
    sqSet.arr "lat".toList = ⟨["lat".toList], [2], fun ix => .fin (70 + ix.getD 0 0)⟩ ∧
    sqSet.arr "lt".toList = ⟨["t".toList], [2], fun _ => .fin 6⟩ := by
  have h1 : ¬ "lat".toList = "t".toList := by decide +kernel
  have h4 : ¬ "lt".toList = "t".toList := by decide +kernel
  have h5 : ¬ "lt".toList = "lat".toList := by decide +kernel
  refine ⟨?_, ?_, ?_⟩
  · simp only [sqSet, if_true]
  · simp only [sqSet, if_neg h1, if_true]
  · simp only [sqSet, if_neg h4, if_neg h5]

theorem sqSound : Sound sqSet sqPlan.need := by
  obtain ⟨a1, a2, a3⟩ := sqArr
  have l1 : sqSet.len "t".toList = 2 := by rw [XSet.len, a1]; rfl
  have l2 : sqSet.len "lat".toList = 2 := by rw [XSet.len, a2]; rfl
  refine ⟨?_, ?_, ?_, ?_, l1, ?_⟩
  · change ["t".toList, "lat".toList].Nodup
    decide +kernel
  · change ∀ c ∈ ["t".toList, "lat".toList], c ∉ ["lt".toList]
    decide +kernel
  · change ∀ c ∈ ["t".toList, "lat".toList], _
    intro c hc
    simp only [List.mem_cons, List.not_mem_nil, or_false] at hc
    rcases hc with rfl | rfl
    · rw [l1, a1]; exact ⟨rfl, rfl⟩
    · rw [l2, a2]; exact ⟨rfl, rfl⟩
  · change "t".toList ∈ ["t".toList, "lat".toList]
    decide +kernel
  · change ∀ k ∈ ["lat".toList, "lt".toList], _
    intro k hk
    change _ ∧ (∀ d ∈ _, d ∈ ["t".toList, "lat".toList]) ∧ _
    simp only [List.mem_cons, List.not_mem_nil, or_false] at hk
    rcases hk with rfl | rfl
    · rw [a2]; exact ⟨by decide +kernel, by decide +kernel, by simp only [List.map_cons, List.map_nil, l2]⟩
    · rw [a3]; exact ⟨by decide +kernel, by decide +kernel, by simp only [List.map_cons, List.map_nil, l1]⟩

/-- For this set the cell of the second time and the first latitude, 70, gets latitude 71 from a library that changes
nothing. -/
example : ∃ out, addX Ocb.Pysat.exLib (dualCycler [0]) 0 60 sqSet sqNames (.scalar (.fin 0)) [] [] 1 "ocb".toList = .ok (some out) ∧
    cell sqSet "lat".toList (fun d => if d = "t".toList then 1 else 0) = .fin 70 ∧
    (out (under "lat".toList "ocb".toList)).val [1, 0] = .fin 71 := by
  obtain ⟨a1, a2, a3⟩ := sqArr
  have l1 : sqSet.len "t".toList = 2 := by rw [XSet.len, a1]; rfl
  have l2 : sqSet.len "lat".toList = 2 := by rw [XSet.len, a2]; rfl
  have hb : IsBoundary (dualCycler [0]) (fun _ => True) := .dual [0] (by simp)
  have hN : NondecOn (dualCycler [0]).times (Cand (fun _ => True) 0) := by
    intro a b s t _ _ _ hs ht
    have := exOne a s hs
    have := exOne b t ht
    omega
  have hp : plan (sqSet.vars ++ sqSet.coords) sqNames = .ok sqPlan := by
    change plan (["lt".toList] ++ ["t".toList, "lat".toList]) sqNames = .ok sqPlan
    decide
  have hlat : sqNames.mlat ∈ sqSet.coords := by
    change "lat".toList ∈ ["t".toList, "lat".toList]
    decide +kernel
  have hlt : sqNames.mlt ∈ sqSet.vars := by
    change "lt".toList ∈ ["lt".toList]
    decide +kernel
  have hd : (sqSet.arr sqNames.mlt).dims = [sqSet.index] := by
    change (sqSet.arr "lt".toList).dims = ["t".toList]
    rw [a3]
  have hx : sqNames.mlat ≠ sqSet.index := by
    change "lat".toList ≠ "t".toList
    decide +kernel
  have hnames : ∀ k ∈ sqPlan.need, k ∈ sqSet.vars ∨ k = sqNames.mlat := by
    change ∀ k ∈ ["lat".toList, "lt".toList], k ∈ ["lt".toList] ∨ k = "lat".toList
    decide +kernel
  have hdims : ∀ k ∈ sqPlan.need, ∀ d ∈ (sqSet.arr k).dims, d = sqSet.index ∨ d = sqNames.mlat := by
    change ∀ k ∈ ["lat".toList, "lt".toList], ∀ d ∈ _, d = "t".toList ∨ d = "lat".toList
    intro k hk
    simp only [List.mem_cons, List.not_mem_nil, or_false] at hk
    rcases hk with rfl | rfl
    · rw [a2]; decide +kernel
    · rw [a3]; decide +kernel
  obtain ⟨l', hr, hz, -⟩ := square_ready (.fin 0) hp sqSound hlat hlt hd hx l2 hnames hdims
  have hch : ∀ σ, Chosen sqSet sqNames.mlat sqPlan.need 1 σ := by
    intro σ
    have c2 : cell sqSet "lt".toList σ = .fin 6 := by rw [cell, a3]
    refine ⟨?_, ⟨"lt".toList, ?_, hlt, 6, c2⟩, ?_⟩
    · change Side 1 (cell sqSet "lat".toList σ)
      rw [cell, a2]
      refine ⟨by simp, fun _ => ?_⟩
      simp only [Fl.lt, decide_eq_true_eq]
      positivity
    · change "lt".toList ∈ ["lat".toList, "lt".toList]
      decide +kernel
    · intro k _ hk'
      have : k = "lt".toList := List.mem_singleton.1 hk'
      rw [this, c2]
      simp
  have hin : ∀ σ : Name → ℕ, σ "t".toList < 2 → σ "lat".toList < 2 → ∀ d ∈ [sqSet.index, sqNames.mlat], σ d < sqSet.len d := by
    intro σ s1 s2
    change ∀ d ∈ ["t".toList, "lat".toList], σ d < sqSet.len d
    intro d hd
    simp only [List.mem_cons, List.not_mem_nil, or_false] at hd
    rcases hd with rfl | rfl <;> omega
  have hus : (usedTimes sqSet sqNames sqPlan 1)[0]? = some 0 := by
    have hs := hr.sorted (h := 1) (by change [(0 : ℤ), 60].Pairwise (· ≤ ·); simp)
    have hmem : (0 : ℤ) ∈ usedTimes sqSet sqNames sqPlan 1 := by
      rw [usedTimes_mem hr (by change ["t".toList, "lat".toList].Nodup; decide +kernel) (.inl rfl)]
      exact ⟨fun _ => 0, hin _ (by omega) (by omega), hch _, rfl⟩
    have hall : ∀ x ∈ usedTimes sqSet sqNames sqPlan 1, 0 ≤ x := by
      intro x hx
      rw [usedTimes_mem hr (by change ["t".toList, "lat".toList].Nodup; decide +kernel) (.inl rfl)] at hx
      obtain ⟨σ, -, -, hx⟩ := hx
      have hx' : x ∈ [(0 : ℤ), 60] := List.mem_of_getElem? hx
      simp only [List.mem_cons, List.not_mem_nil, or_false] at hx'
      omega
    change (usedTimes sqSet sqNames sqPlan 1).Pairwise (· ≤ ·) at hs
    match hu : usedTimes sqSet sqNames sqPlan 1 with
    | [] => rw [hu] at hmem; simp at hmem
    | x :: l =>
      rw [hu] at hs hmem hall
      have h1 := hall x (by simp)
      rcases List.mem_cons.1 hmem with h2 | h2
      · rw [← h2]; rfl
      · have := List.rel_of_pairwise_cons hs h2
        have h3 : x = 0 := by omega
        rw [h3]; rfl
  obtain ⟨out, ho⟩ := succeeds Ocb.Pysat.exLib ⟨fun _ _ _ _ => ⟨_, rfl⟩, fun _ _ _ _ _ => ⟨_, rfl⟩, fun _ _ _ => ⟨_, rfl⟩⟩ hb 0
    (by decide) 60 (by decide) [] [] 1 "ocb".toList hp hr hz (List.ne_nil_of_mem (List.mem_filter.2 ⟨(by
      change "lt".toList ∈ ["lat".toList, "lt".toList]
      decide +kernel), decide_eq_true hlt⟩)) (made_plain _ rfl)
      (fun _ _ hes => by simp [sqPlan, entryVars] at hes) (by change [(0 : ℤ), 60].Pairwise (· ≤ ·); simp) hN (by simp [dualCycler]) (by
      rintro ⟨-, ⟨hx, -⟩ | ⟨-, hx⟩⟩
      · omega
      · have := hx 0 0 0 ⟨le_rfl, rfl⟩ ⟨le_rfl, .inl rfl⟩ hus
        omega)
  have n1 : ¬ "lat".toList = "t".toList := by decide +kernel
  refine ⟨out, ho, ?_, ?_⟩
  · rw [cell, a2]
    simp only [List.map_cons, List.map_nil, if_neg n1]
    norm_num
  · set σ : Name → ℕ := fun d => if d = "t".toList then 1 else 0 with hσ
    have s1 : σ sqSet.index = 1 := by
      change (if "t".toList = "t".toList then 1 else 0) = 1
      rw [if_pos rfl]
    have s2 : σ sqNames.mlat = 0 := by
      change (if "lat".toList = "t".toList then 1 else 0) = 0
      rw [if_neg n1]
    have hval := C210_square_refuted Ocb.Pysat.exLib hb 0 (by decide) 60 (by decide) sqSet sqNames (.fin 0) [] [] 1 (.inl rfl) "ocb".toList
      sqPlan hp sqSound hlat hlt hd hx l2 hnames hdims (by decide +kernel) out ho σ (by rw [s1]; decide) (by rw [s2]; decide)
    rw [s1, s2] at hval
    rcases hval with ⟨r, v, -, -, -, hv, hv1, -⟩ | ⟨-, hc⟩
    · have hv' : (cell sqSet sqNames.mlat fun _ => 1, cell sqSet sqNames.mlt σ, (.fin 0 : V)) = v := by
        have hv' : Except.ok (cell sqSet sqNames.mlat fun _ => 1, cell sqSet sqNames.mlt σ, (.fin 0 : V)) =
          (Except.ok v : Except PyErr (V × V × V)) := hv
        simpa using hv'
      have hc : cell sqSet sqNames.mlat (fun _ => 1) = .fin 71 := by
        change cell sqSet "lat".toList _ = _
        rw [cell, a2]
        simp only [List.map_cons, List.map_nil]
        norm_num
      rw [← hv', hc] at hv1
      exact hv1
    · exfalso
      refine hc (by change [(0 : ℤ), 60].Pairwise (· ≤ ·); simp) hN (hch σ) 0 ⟨le_rfl, .inl rfl⟩ ⟨60, 0, rfl, ⟨le_rfl, rfl⟩, by simp⟩

/-- Locations that both depend on the time and a further dimension: `C210_both_refuted` applies. -/
example (L : Lib) (c : Cycler) (rec tol : ℤ) (b : Name) (out : Name → Arr V) :
    let S : XSet := ⟨['t'], [0, 60], [['t'], ['x']], [['a'], ['b']], fun k =>
      if k = ['t'] then ⟨[['t']], [2], fun _ => .fin 0⟩ else if k = ['x'] then ⟨[['x']], [3], fun _ => .fin 0⟩
      else ⟨[['t'], ['x']], [2, 3], fun ix => .fin (60 + ix.getD 1 0)⟩⟩
    addX L c rec tol S ⟨['a'], ['b'], [], [], []⟩ (.scalar (.fin 0)) [] [] 1 b ≠ .ok (some out) := by
  intro S
  refine C210_both_refuted L rec tol S _ _ [] [] 1 b ⟨[], [], [], [['a'], ['b']]⟩ (by decide) ?_ (by decide) ['x'] (by decide) rfl rfl
    (.inl rfl) out
  refine ⟨by decide, by decide, ?_, by decide, rfl, ?_⟩
  · intro c hc
    simp only [S, List.mem_cons, List.not_mem_nil, or_false] at hc
    rcases hc with rfl | rfl <;> exact ⟨rfl, rfl⟩
  · intro k hk
    simp only [List.mem_cons, List.not_mem_nil, or_false] at hk
    rcases hk with rfl | rfl
    · exact ⟨by decide, by decide, rfl⟩
    · exact ⟨by decide, by decide, rfl⟩

/-- Latitude and local time as coordinates of one variable: `C210_coords_refuted` applies. -/
example (L : Lib) (c : Cycler) (rec tol : ℤ) (b : Name) (out : Name → Arr V) (k : Name) (ix : List ℕ) :
    let S : XSet := ⟨['t'], [0, 60], [['t'], ['a'], ['b']], [['e']], fun k =>
      if k = ['t'] then ⟨[['t']], [2], fun _ => .fin 0⟩ else if k = ['a'] then ⟨[['a']], [3], fun ix => .fin (60 + ix.getD 0 0)⟩
      else if k = ['b'] then ⟨[['b']], [4], fun ix => .fin (ix.getD 0 0)⟩
      else ⟨[['t'], ['a'], ['b']], [2, 3, 4], fun _ => .fin 1⟩⟩
    addX L c rec tol S ⟨['a'], ['b'], [['e']], [], []⟩ (.scalar (.fin 0)) [] [] 1 b = .ok (some out) → (out k).val ix = .nan := by
  intro S ho
  exact C210_coords_refuted L rec tol S _ _ [] [] 1 b ⟨[['e']], [], [], [['a'], ['b'], ['e']]⟩ (by decide) (by decide)
    (by decide) ['e'] rfl rfl out ho k ix

end Ocb.XData
