import Verif.Model.Load
import Verif.Props.Coord

/-!
# Properties C30-C33 and C63: the boundary-location cache, the caller's arrays, and loading
-/

set_option autoImplicit false

namespace Ocb.Coord

open Real

/-! ### C30: the cache -/

/-- The boundary latitudes of record `B` at the local times `mlt`. -/
def LatsFor (B : Rec) (mlt : List (Option ℝ)) (v : List (Option ℝ)) : Prop :=
  List.Forall₂ (fun m l => (m = none ∧ l = none) ∨ ∃ h, m = some h ∧ boundaryLat B h = .ok l) mlt v

theorem boundaryEntry_total (B : Rec) (m : Option ℝ) : ∃ l, boundaryEntry B m = .ok l := by
  cases m with
  | none => exact ⟨_, rfl⟩
  | some m => exact ⟨_, boundaryLat_ok B m⟩

theorem latsFor_iff (B : Rec) (mlt v : List (Option ℝ)) : mapE (boundaryEntry B) mlt = .ok v ↔ LatsFor B mlt v := by
  induction mlt generalizing v with
  | nil => simp [mapE, LatsFor, eq_comm]
  | cons m ms ih =>
    obtain ⟨l, hl⟩ := boundaryEntry_total B m
    simp only [mapE, hl]
    have hm : ∀ l', ((m = none ∧ l' = none) ∨ ∃ h, m = some h ∧ boundaryLat B h = .ok l') ↔ l = l' := by
      intro l'
      cases m with
      | none =>
        simp only [boundaryEntry, Except.ok.injEq] at hl
        subst hl; simp [eq_comm]
      | some h =>
        simp only [boundaryEntry] at hl
        simp [hl]
    unfold LatsFor at ih ⊢
    rw [List.forall₂_cons_left_iff]
    simp only [hm]
    cases hms : mapE (boundaryEntry B) ms with
    | error e =>
      exfalso
      obtain ⟨bs, hbs⟩ := mapE_ok (f := boundaryEntry B) (l := ms) (fun a _ => boundaryEntry_total B a)
      rw [hbs] at hms; cases hms
    | ok bs =>
      constructor
      · intro h
        simp only [Except.ok.injEq] at h
        subst h
        exact ⟨l, bs, rfl, (ih bs).1 hms, rfl⟩
      · rintro ⟨b, u, rfl, hu, rfl⟩
        have := (ih u).2 hu
        rw [hms] at this
        simpa using this

theorem latsFor_total (B : Rec) (mlt : List (Option ℝ)) : ∃ v, mapE (boundaryEntry B) mlt = .ok v :=
  mapE_ok fun a _ => boundaryEntry_total B a

/-- The record index `k` is among the requested ones, directly or as a negative index. -/
def Requested (n : ℕ) (rinds : Option (List ℤ)) (k : ℕ) : Prop :=
  k < n ∧ ∀ l, rinds = some l → (k : ℤ) ∈ l ∨ (k : ℤ) - n ∈ l

/-- Every requested index exists. -/
def InRange (n : ℕ) (rinds : Option (List ℤ)) : Prop := ∀ l, rinds = some l → ∀ i ∈ l, -(n : ℤ) ≤ i ∧ i < n

theorem pyPos_some {n k : ℕ} {i : ℤ} : pyPos n i = some k ↔ k < n ∧ (i = k ∨ i = (k : ℤ) - n) := by
  unfold pyPos
  split_ifs with h1 h2 h3
  · simp only [Option.some.injEq]; omega
  · simp only [reduceCtorEq, false_iff]; omega
  · simp only [Option.some.injEq]; omega
  · simp only [reduceCtorEq, false_iff]; omega

theorem pyPos_none {n : ℕ} {i : ℤ} : pyPos n i = none ↔ ¬ (-(n : ℤ) ≤ i ∧ i < n) := by
  unfold pyPos
  split_ifs with h1 h2 h3
  · simp only [reduceCtorEq, false_iff]; omega
  · simp only [true_iff]; omega
  · simp only [reduceCtorEq, false_iff]; omega
  · simp only [true_iff]; omega

theorem cacheLoop_out (recs : List Rec) (ref : ℕ) (mlt : List (Option ℝ)) (ow : Bool) (inds : List ℤ)
    (lats : List (Option (List (Option ℝ)))) (mlts : List (Option ℕ)) (hl : lats.length = recs.length)
    (hm : mlts.length = recs.length) :
    ∃ L M e, cacheLoop recs ref mlt ow inds lats mlts = (L, M, e) ∧ L.length = recs.length ∧ M.length = recs.length ∧
      (∀ k : ℕ, (L[k]? = lats[k]? ∧ M[k]? = mlts[k]?) ∨
        (∃ i ∈ inds, pyPos recs.length i = some k) ∧ (lats[k]? = some none ∨ ow = true) ∧
          ∃ B v, recs[k]? = some B ∧ mapE (boundaryEntry B) mlt = .ok v ∧ L[k]? = some (some v) ∧
            M[k]? = some (some ref)) ∧
      (e = none → ∀ i ∈ inds, ∀ k : ℕ, pyPos recs.length i = some k → (lats[k]? = some none ∨ ow = true) →
          ∃ B v, recs[k]? = some B ∧ mapE (boundaryEntry B) mlt = .ok v ∧ L[k]? = some (some v) ∧
            M[k]? = some (some ref)) ∧
      (e = none ↔ ∀ i ∈ inds, -(recs.length : ℤ) ≤ i ∧ i < recs.length) := by
  induction inds generalizing lats mlts with
  | nil => exact ⟨lats, mlts, none, rfl, hl, hm, fun k => .inl ⟨rfl, rfl⟩, by simp, by simp⟩
  | cons i is ih =>
    unfold cacheLoop
    rw [hl]
    cases hp : pyPos recs.length i with
    | none =>
      refine ⟨lats, mlts, _, rfl, hl, hm, fun k => .inl ⟨rfl, rfl⟩, by simp, ?_⟩
      have := pyPos_none.1 hp
      simp only [reduceCtorEq, false_iff]
      intro h
      exact this (h i List.mem_cons_self)
    | some k =>
      have hk := (pyPos_some.1 hp).1
      have hir : -(recs.length : ℤ) ≤ i ∧ i < recs.length := by
        by_contra h
        rw [pyPos_none.2 h] at hp; cases hp
      simp only []
      split_ifs with hc
      · obtain ⟨v, hv⟩ := latsFor_total recs[k] mlt
        have hrk : recs[k]? = some recs[k] := List.getElem?_eq_getElem hk
        simp only [hrk, hv]
        obtain ⟨L, M, e, h0, h1, h2, h3, h4, h5⟩ := ih (lats.set k (some v)) (mlts.set k (some ref)) (by simpa using hl)
          (by simpa using hm)
        have hLk : L[k]? = some (some v) ∧ M[k]? = some (some ref) := by
          rcases h3 k with h | ⟨-, -, B, v', hB, hv', hL', hM'⟩
          · rw [h.1, h.2]
            rw [List.getElem?_set_self (by omega), List.getElem?_set_self (by omega)]
            exact ⟨rfl, rfl⟩
          · rw [hrk] at hB
            obtain rfl : recs[k] = B := by simpa using hB
            rw [hv] at hv'
            obtain rfl : v = v' := by simpa using hv'
            exact ⟨hL', hM'⟩
        have hset : ∀ k' : ℕ, k' ≠ k → (lats.set k (some v))[k']? = lats[k']? ∧ (mlts.set k (some ref))[k']? = mlts[k']? :=
          fun k' hne => ⟨List.getElem?_set_ne (Ne.symm hne), List.getElem?_set_ne (Ne.symm hne)⟩
        refine ⟨L, M, e, h0, h1, h2, ?_, ?_, ?_⟩
        · intro k'
          by_cases hkk : k' = k
          · subst hkk
            exact .inr ⟨⟨i, List.mem_cons_self, hp⟩, hc, _, v, hrk, hv, hLk⟩
          · rw [← (hset k' hkk).1, ← (hset k' hkk).2]
            rcases h3 k' with h | ⟨⟨i', hi', hp'⟩, h⟩
            · exact .inl h
            · exact .inr ⟨⟨i', List.mem_cons_of_mem _ hi', hp'⟩, h⟩
        · intro he i' hi' k' hp' hc'
          by_cases hkk : k' = k
          · subst hkk
            exact ⟨_, v, hrk, hv, hLk⟩
          · rw [← (hset k' hkk).1] at hc'
            rcases List.mem_cons.1 hi' with rfl | hi'
            · rw [hp] at hp'; exact absurd (by simpa using hp'.symm) hkk
            · exact h4 he i' hi' k' hp' hc'
        · rw [h5]
          simp only [List.mem_cons, forall_eq_or_imp]
          exact ⟨fun h => ⟨hir, h⟩, fun h => h.2⟩
      · obtain ⟨L, M, e, h0, h1, h2, h3, h4, h5⟩ := ih lats mlts hl hm
        refine ⟨L, M, e, h0, h1, h2, ?_, ?_, ?_⟩
        · intro k'
          rcases h3 k' with h | ⟨⟨i', hi', hp'⟩, h⟩
          · exact .inl h
          · exact .inr ⟨⟨i', List.mem_cons_of_mem _ hi', hp'⟩, h⟩
        · intro he i' hi' k' hp' hc'
          rcases List.mem_cons.1 hi' with rfl | hi'
          · rw [hp] at hp'
            obtain rfl : k = k' := by simpa using hp'
            exact absurd hc' hc
          · exact h4 he i' hi' k' hp' hc'
        · rw [h5]
          simp only [List.mem_cons, forall_eq_or_imp]
          exact ⟨fun h => ⟨hir, h⟩, fun h => h.2⟩

/-- One slot per record in both lists, as soon as they exist. -/
def Store.WF (n : ℕ) (s : Store) : Prop :=
  (∀ l, s.lats = some l → l.length = n) ∧ ∀ l, s.mlts = some l → l.length = n

/-- The stored latitudes of record `k`, `none` when nothing is stored. -/
def Store.slot (s : Store) (k : ℕ) : Option (List (Option ℝ)) := (s.lats.bind (·[k]?)).join

/-- The array stored as the local times of record `k`. -/
def Store.slotMlt (s : Store) (k : ℕ) : Option ℕ := (s.mlts.bind (·[k]?)).join

theorem getD_replicate_slot {α : Type*} (l : Option (List (Option α))) (n k : ℕ) :
    (((l.getD (List.replicate n none))[k]?).join) = (l.bind (·[k]?)).join := by
  cases l with
  | none =>
    simp only [Option.getD_none, Option.bind_none, Option.join_none, List.getElem?_replicate]
    split <;> rfl
  | some l => rfl

/-- C30: what one call does to the store.  Slots keep their number; a slot changes only if its record was requested and
the slot was empty or `overwrite` was set, and then it holds the boundary latitudes of that very record at the wrapped
local times; without an exception every requested, replaceable slot is filled. -/
theorem C30_call (recs : List Rec) (s : Store) (hs : s.WF recs.length) (ref : ℕ) (rinds : Option (List ℤ)) (ow : Bool) :
    ∃ s' e, getBoundaryLat recs s ref rinds ow = (s', e) ∧ s'.WF recs.length ∧
      (∃ l, s'.lats = some l ∧ l.length = recs.length) ∧
      (e = none ↔ InRange recs.length rinds) ∧
      (∀ k, (s'.slot k = s.slot k ∧ s'.slotMlt k = s.slotMlt k) ∨
        (Requested recs.length rinds k ∧ (s.slot k = none ∨ ow = true) ∧
          ∃ B v, recs[k]? = some B ∧ s'.slot k = some v ∧ LatsFor B ((s.heap ref).map (Option.map wrapMlt)) v ∧
            s'.slotMlt k = some ref)) ∧
      (e = none → ∀ k, Requested recs.length rinds k → (s.slot k = none ∨ ow = true) →
          ∃ B v, recs[k]? = some B ∧ s'.slot k = some v ∧ LatsFor B ((s.heap ref).map (Option.map wrapMlt)) v ∧
            s'.slotMlt k = some ref) ∧
      s'.heap = Function.update s.heap ref ((s.heap ref).map (Option.map wrapMlt)) := by
  set n := recs.length with hn
  set lats := s.lats.getD (List.replicate n none) with hlats
  set mlts := s.mlts.getD (List.replicate n none) with hmlts
  have hl : lats.length = n := by
    rw [hlats]; cases h : s.lats with
    | none => simp
    | some l => simpa using hs.1 l h
  have hm : mlts.length = n := by
    rw [hmlts]; cases h : s.mlts with
    | none => simp
    | some l => simpa using hs.2 l h
  set inds := rinds.getD ((List.range n).map (Int.ofNat ·)) with hinds
  obtain ⟨L, M, e, h0, h1, h2, h3, h4, h5⟩ :=
    cacheLoop_out recs ref ((s.heap ref).map (Option.map wrapMlt)) ow inds lats mlts hl hm
  have hreq : ∀ k, (∃ i ∈ inds, pyPos n i = some k) ↔ Requested n rinds k := by
    intro k
    simp only [pyPos_some, Requested, hinds]
    cases rinds with
    | none =>
      simp only [Option.getD_none, List.mem_map, List.mem_range, reduceCtorEq, false_implies, implies_true, and_true]
      constructor
      · rintro ⟨i, -, h, -⟩; exact h
      · intro h; exact ⟨k, ⟨k, h, rfl⟩, h, .inl rfl⟩
    | some l =>
      simp only [Option.getD_some, Option.some.injEq, forall_eq']
      constructor
      · rintro ⟨i, hi, h, rfl | rfl⟩
        · exact ⟨h, .inl hi⟩
        · exact ⟨h, .inr hi⟩
      · rintro ⟨h, hi | hi⟩
        · exact ⟨_, hi, h, .inl rfl⟩
        · exact ⟨_, hi, h, .inr rfl⟩
  have hslot : ∀ k, lats[k]?.join = s.slot k := fun k => getD_replicate_slot s.lats n k
  have hslotm : ∀ k, mlts[k]?.join = s.slotMlt k := fun k => getD_replicate_slot s.mlts n k
  have hempty : ∀ k, k < n → (s.slot k = none ↔ lats[k]? = some none) := by
    intro k hk
    rw [← hslot]
    rw [List.getElem?_eq_getElem (by omega)]
    simp
  refine ⟨⟨Function.update s.heap ref ((s.heap ref).map (Option.map wrapMlt)), some L, some M⟩, e, ?_, ?_, ?_, ?_, ?_,
    ?_, ?_⟩
  · unfold getBoundaryLat
    simp only [← hn, ← hlats, ← hmlts, ← hinds, h0]
  · exact ⟨by rintro l ⟨⟩; exact h1, by rintro l ⟨⟩; exact h2⟩
  · exact ⟨L, rfl, h1⟩
  · rw [h5]
    unfold InRange
    rw [hinds]
    cases rinds with
    | none => simp; intro a ha; omega
    | some l => exact ⟨by rintro h l ⟨⟩; exact h, fun h => h l rfl⟩
  · intro k
    rcases h3 k with ⟨h, h'⟩ | ⟨hr, hc, B, v, hB, hv, hL, hM⟩
    · left
      rw [← hslot, ← hslotm, ← h, ← h']
      exact ⟨rfl, rfl⟩
    · right
      have hr' := (hreq k).1 hr
      refine ⟨hr', ?_, B, v, hB, ?_, (latsFor_iff _ _ _).1 hv, ?_⟩
      · rwa [hempty k hr'.1]
      · simp [Store.slot, hL]
      · simp [Store.slotMlt, hM]
  · intro he k hr hc
    obtain ⟨i, hi, hp⟩ := (hreq k).2 hr
    obtain ⟨B, v, hB, hv, hL, hM⟩ := h4 he i hi k hp (by rwa [← hempty k hr.1])
    exact ⟨B, v, hB, by simp [Store.slot, hL], (latsFor_iff _ _ _).1 hv, by simp [Store.slotMlt, hM]⟩
  · rfl

/-- C30 for every session: the number of slots is always the number of records. -/
theorem C30_history_slots (recs : List Rec) (s : Store) (hs : s.WF recs.length) (ops : List Op) :
    (runOps recs s ops).WF recs.length := by
  unfold runOps
  induction ops generalizing s with
  | nil => exact hs
  | cons o ops ih =>
    refine ih _ ?_
    cases o with
    | call ref rinds ow =>
      obtain ⟨s', e, h, hw, -⟩ := C30_call recs s hs ref rinds ow
      simp only [Op.run, h]; exact hw
    | write ref vals => exact hs

/-- C30 for every session: as long as record `k` is never requested with `overwrite`, what is stored for it stays. -/
theorem C30_history_kept (recs : List Rec) (s : Store) (hs : s.WF recs.length) (ops : List Op) (k : ℕ)
    (v : List (Option ℝ)) (hk : s.slot k = some v)
    (hops : ∀ ref rinds, Op.call ref rinds true ∈ ops → ¬ Requested recs.length rinds k) :
    (runOps recs s ops).slot k = some v := by
  unfold runOps
  induction ops generalizing s with
  | nil => exact hk
  | cons o ops ih =>
    have hops' : ∀ ref rinds, Op.call ref rinds true ∈ ops → ¬ Requested recs.length rinds k :=
      fun ref rinds h => hops ref rinds (List.mem_cons_of_mem _ h)
    cases o with
    | call ref rinds ow =>
      obtain ⟨s', e, h, hw, -, -, h3, -⟩ := C30_call recs s hs ref rinds ow
      have hrun : Op.run recs s (.call ref rinds ow) = s' := by simp only [Op.run, h]
      rw [List.foldl_cons, hrun]
      refine ih s' hw ?_ hops'
      rcases h3 k with ⟨h4, -⟩ | ⟨hr, h4 | h4, -⟩
      · rw [h4, hk]
      · rw [hk] at h4; cases h4
      · subst h4
        exact absurd hr (hops ref rinds List.mem_cons_self)
    | write ref vals => exact ih _ hs hk hops'

example : (⟨fun _ => [], none, none⟩ : Store).WF 3 ∧ Requested 3 (some [-1]) 2 ∧ ¬ Requested 3 (some [-1]) 0 ∧
    InRange 3 (some [-1, 2]) := by
  refine ⟨⟨by simp, by simp⟩, ⟨by norm_num, by simp⟩, ?_, by simp [InRange]⟩
  rintro ⟨-, h⟩
  have := h _ rfl
  simp at this

theorem wrapMlt_cases (m : ℝ) : wrapMlt m = m ∨ wrapMlt m = m + 24 ∨ wrapMlt m = m - 24 := by
  unfold wrapMlt
  simp only []
  split_ifs with h1 h2 h3
  · linarith
  · exact .inr (.inl rfl)
  · exact .inr (.inr rfl)
  · exact .inl rfl

/-- The boundary latitude depends on the local time only up to whole days. -/
theorem boundaryLat_day (B : Rec) (hp : ∀ h, B.rf (h + 24) = B.rf h) (m : ℝ) :
    boundaryLat B (m + 24) = boundaryLat B m := by
  rw [boundaryLat_ok, boundaryLat_ok, hp]
  have : hourAngle (m + 24) - B.phiCent * π / 180 = hourAngle m - B.phiCent * π / 180 + 2 * π := by
    unfold hourAngle; ring
  rw [this, Real.cos_add_two_pi, Real.sin_add_two_pi]

theorem boundaryLat_wrap (B : Rec) (hp : ∀ h, B.rf (h + 24) = B.rf h) (m : ℝ) :
    boundaryLat B (wrapMlt m) = boundaryLat B m := by
  rcases wrapMlt_cases m with h | h | h <;> rw [h]
  · exact boundaryLat_day B hp m
  · have := boundaryLat_day B hp (m - 24)
    rw [sub_add_cancel] at this
    exact this.symm

theorem latsFor_wrap (B : Rec) (hp : ∀ h, B.rf (h + 24) = B.rf h) (mlt v : List (Option ℝ)) :
    LatsFor B (mlt.map (Option.map wrapMlt)) v ↔ LatsFor B mlt v := by
  unfold LatsFor
  rw [List.forall₂_map_left_iff]
  have : ∀ m l, ((Option.map wrapMlt m = none ∧ l = none) ∨ ∃ h, Option.map wrapMlt m = some h ∧ boundaryLat B h = .ok l) ↔
      ((m = none ∧ l = none) ∨ ∃ h, m = some h ∧ boundaryLat B h = .ok l) := by
    intro m l
    cases m with
    | none => simp
    | some m => simp [boundaryLat_wrap B hp]
  simp only [this]

/-- The stored latitudes are those of the stored local times. -/
def Store.Consistent (recs : List Rec) (s : Store) : Prop :=
  ∀ k v, s.slot k = some v → ∃ B a, recs[k]? = some B ∧ s.slotMlt k = some a ∧ LatsFor B (s.heap a) v

/-- C30 for every session of calls in which the caller leaves the passed arrays alone: the stored latitudes are always
the boundary latitudes of the stored local times of the same record. -/
theorem C30_history_consistent (recs : List Rec) (hp : ∀ B ∈ recs, ∀ h, B.rf (h + 24) = B.rf h) (s : Store)
    (hs : s.WF recs.length) (hc : s.Consistent recs) (ops : List Op) (hops : ∀ ref vals, Op.write ref vals ∉ ops) :
    (runOps recs s ops).Consistent recs := by
  unfold runOps
  induction ops generalizing s with
  | nil => exact hc
  | cons o ops ih =>
    have hops' : ∀ ref vals, Op.write ref vals ∉ ops := fun ref vals h => hops ref vals (List.mem_cons_of_mem _ h)
    cases o with
    | write ref vals => exact absurd List.mem_cons_self (hops ref vals)
    | call ref rinds ow =>
      obtain ⟨s', e, h, hw, -, -, h3, -, hh⟩ := C30_call recs s hs ref rinds ow
      have hrun : Op.run recs s (.call ref rinds ow) = s' := by simp only [Op.run, h]
      rw [List.foldl_cons, hrun]
      refine ih s' hw ?_ hops'
      intro k v hv
      rcases h3 k with ⟨h4, h5⟩ | ⟨-, -, B, v', hB, hv', hL, hM⟩
      · rw [h4] at hv
        obtain ⟨B, a, hB, ha, hL⟩ := hc k v hv
        refine ⟨B, a, hB, by rw [h5, ha], ?_⟩
        rw [hh]
        by_cases har : a = ref
        · subst har
          rw [Function.update_self, latsFor_wrap B (hp B (List.mem_of_getElem? hB))]
          exact hL
        · rw [Function.update_of_ne har]
          exact hL
      · rw [hv] at hv'
        obtain rfl : v = v' := by simpa using hv'
        refine ⟨B, ref, hB, hM, ?_⟩
        rw [hh, Function.update_self]
        exact hL

example : (⟨fun _ => [], none, none⟩ : Store).Consistent [exRec] ∧ ∀ h, exRec.rf (h + 24) = exRec.rf h := by
  refine ⟨?_, fun _ => rfl⟩
  intro k v h
  simp [Store.slot] at h

/-! ### C63: the stored local times are not a copy -/

/-- C63 is false: the object keeps a reference to the caller's array.  Writing to the array after the call changes the
stored local times while the stored latitudes stay, so that they no longer belong together. -/
theorem C63_stored_mlt_aliased_refuted : ∃ (recs : List Rec) (s : Store) (ref : ℕ) (vals : List (Option ℝ)),
    s.WF recs.length ∧ (∀ B ∈ recs, B.Valid) ∧ (runOps recs s [.call ref none false]).Consistent recs ∧
    ¬ (runOps recs s [.call ref none false, .write ref vals]).Consistent recs := by
  have hW : (⟨fun _ => [some 6], none, none⟩ : Store).WF [exRec].length := ⟨by simp, by simp⟩
  have hC : (⟨fun _ => [some 6], none, none⟩ : Store).Consistent [exRec] := by
    intro k v h; simp [Store.slot] at h
  refine ⟨[exRec], ⟨fun _ => [some 6], none, none⟩, 0, [], hW, ?_, ?_, ?_⟩
  · intro B hB
    obtain rfl : B = exRec := by simpa using hB
    exact exRec_valid
  · exact C30_history_consistent [exRec] (by intro B hB h; obtain rfl : B = exRec := by simpa using hB
                                             rfl) _ hW hC _ (by simp)
  · intro h
    obtain ⟨s', e, he, hw, -, hr, h3, h4, h5⟩ := C30_call [exRec] ⟨fun _ => [some 6], none, none⟩ hW 0 none false
    have hen : e = none := hr.2 (by intro l hl; cases hl)
    obtain ⟨B, v, hB, hv, hL, hM⟩ := h4 hen 0 ⟨by simp, by rintro l ⟨⟩⟩ (.inl rfl)
    have hrun : runOps [exRec] ⟨fun _ => [some 6], none, none⟩ [.call 0 none false, .write 0 []]
        = { s' with heap := Function.update s'.heap 0 [] } := by
      simp [runOps, Op.run, he]
    rw [hrun] at h
    obtain ⟨B', a, -, ha, hL'⟩ := h 0 v hv
    have ha' : s'.slotMlt 0 = some a := ha
    rw [hM] at ha'
    obtain rfl : 0 = a := by simpa using ha'
    simp only [Function.update_self] at hL'
    cases hL'
    cases hL

/-! ### C31: the caller's arrays -/

/-- C31: the latitude array passed to `normal_coord` comes back unchanged exactly when no latitude has the wrong sign, or
all have. -/
theorem C31_normal_unchanged_iff (B : Rec) (hB : B.Valid) (pts : List (Option ℝ × Option ℝ)) :
    ∃ out lats, normalArr (some B) pts = .ok (out, lats) ∧
      (lats = pts.map (·.1) ↔
        (∀ p ∈ pts, ∀ lat, p.1 = some lat → InHem B.hem lat) ∨ ∀ p ∈ pts, ∀ lat, p.1 = some lat → ¬ InHem B.hem lat) := by
  have hwf : ∀ (p : Option ℝ × Option ℝ), wrongHem B.hem p.1 = true ↔ ∀ lat, p.1 = some lat → ¬ InHem B.hem lat := by
    intro p
    constructor
    · intro h lat e hin
      rw [(wrongHem_iff B.hem p.1).2 ⟨lat, e, hin⟩] at h; cases h
    · intro h
      by_contra hc
      obtain ⟨lat, e, hin⟩ := (wrongHem_iff B.hem p.1).1 (by simpa using hc)
      exact h lat e hin
  obtain ⟨out, lats, h, -⟩ := C27_normal_entries B hB pts
  refine ⟨out, lats, h, ?_⟩
  unfold normalArr at h
  simp only [] at h
  split_ifs at h with hc
  · simp only [Except.ok.injEq, Prod.mk.injEq] at h
    rw [← h.2]
    simp only [true_iff]
    right
    intro p hp
    rw [← hwf]
    have h2 := (Bool.and_eq_true_iff.1 hc).2
    rw [List.all_eq_true] at h2
    exact h2 p.1 (List.mem_map.2 ⟨_, hp, rfl⟩)
  · cases hm : mapE (fun p => normalEntry B (if wrongHem B.hem p.1 = true then none else p.1) p.2) pts with
    | error e => rw [hm] at h; cases h
    | ok o =>
      rw [hm] at h
      simp only [bind, Except.bind, pure, Except.pure, Except.ok.injEq, Prod.mk.injEq] at h
      rw [← h.2, List.map_map, List.map_inj_left]
      constructor
      · intro hall
        left
        intro p hp lat e
        have := hall p hp
        simp only [Function.comp_apply] at this
        by_contra hin
        rw [if_pos ((hwf p).2 (by intro l hl; rw [e] at hl; cases hl; exact hin)), e] at this
        cases this
      · rintro (hall | hall) p hp
        · simp only [Function.comp_apply]
          split_ifs with hw
          · cases hpe : p.1 with
            | none => rfl
            | some lat => exact absurd (hall p hp lat hpe) ((hwf p).1 hw lat hpe)
          · rfl
        · exfalso
          apply hc
          have h2 : (pts.map (·.1)).all (wrongHem B.hem) = true := by
            rw [List.all_eq_true]
            intro x hx
            obtain ⟨q, hq, rfl⟩ := List.mem_map.1 hx
            exact (hwf q).2 (hall q hq)
          rw [h2, Bool.and_true, List.any_eq_true]
          exact ⟨p.1, List.mem_map.2 ⟨p, hp, rfl⟩, (hwf p).2 (hall p hp)⟩

/-- C31 is false: with one northern and one southern latitude the southern one is overwritten in the caller's array. -/
theorem C31_normal_mutates_refuted : ∃ (B : Rec) (pts : List (Option ℝ × Option ℝ)), B.Valid ∧
    ∀ out lats, normalArr (some B) pts = .ok (out, lats) → lats ≠ pts.map (·.1) := by
  refine ⟨exRec, [(some 70, some 3), (some (-70), some 3)], exRec_valid, ?_⟩
  obtain ⟨out, lats, h1, h2⟩ := C31_normal_unchanged_iff exRec exRec_valid [(some 70, some 3), (some (-70), some 3)]
  intro out' lats' h
  rw [h1] at h
  simp only [Except.ok.injEq, Prod.mk.injEq] at h
  rw [← h.2]
  intro he
  have hs := sign_hem 70 (by norm_num)
  rcases h2.1 he with h3 | h3
  · exact hs.2 (h3 (some (-70), some 3) (by simp) (-70) rfl)
  · exact h3 (some 70, some 3) (by simp) 70 rfl hs.1

/-- C31: the local times passed to `get_aacgm_boundary_lat` as an array are unchanged exactly when they are all in
`[0, 24)` or NaN; no other array changes. -/
theorem C31_boundary_unchanged_iff (recs : List Rec) (s : Store) (ref : ℕ) (rinds : Option (List ℤ)) (ow : Bool) :
    ∃ s' e, getBoundaryLat recs s ref rinds ow = (s', e) ∧ (∀ a, a ≠ ref → s'.heap a = s.heap a) ∧
      (s'.heap ref = s.heap ref ↔ ∀ m, some m ∈ s.heap ref → 0 ≤ m ∧ m < 24) := by
  refine ⟨_, _, rfl, fun a ha => Function.update_of_ne ha _ _, ?_⟩
  simp only [Function.update_self]
  have hw : ∀ m : ℝ, wrapMlt m = m ↔ 0 ≤ m ∧ m < 24 := by
    intro m
    unfold wrapMlt
    simp only []
    constructor
    · intro h
      split_ifs at h with h1 h2 h3 <;> first | (exfalso; linarith) | exact ⟨by linarith, by linarith⟩
    · rintro ⟨h1, h2⟩
      rw [if_neg (not_lt.2 h1), if_neg (not_le.2 h2)]
  rw [show ((s.heap ref).map (Option.map wrapMlt) = s.heap ref ↔ ∀ o ∈ s.heap ref, Option.map wrapMlt o = o) by
    conv_lhs => rhs; rw [← List.map_id (s.heap ref)]
    rw [List.map_inj_left]; rfl]
  constructor
  · intro h m hm
    have := h (some m) hm
    exact (hw m).1 (by simpa using this)
  · intro h o ho
    cases o with
    | none => rfl
    | some m => simp [(hw m).2 (h m ho)]

/-- C31 is false: a local time of 25 hours is overwritten by 1 in the caller's array. -/
theorem C31_boundary_mutates_refuted : ∃ (recs : List Rec) (s : Store) (ref : ℕ),
    (getBoundaryLat recs s ref none false).1.heap ref ≠ s.heap ref := by
  refine ⟨[], ⟨fun _ => [some 25], none, none⟩, 0, ?_⟩
  obtain ⟨s', e, h1, -, h2⟩ := C31_boundary_unchanged_iff [] ⟨fun _ => [some 25], none, none⟩ 0 none false
  rw [h1]
  intro h
  have := (h2.1 h) 25 (by simp)
  linarith [this.2]

/-! ### C32: Cartesian centres -/

/-- C32: the polar centre denotes the same point as the Cartesian centre (x towards dawn, y towards noon; the polar angle
runs from midnight through dawn), for every point of the plane. -/
theorem C32_polar_centre (x y : ℝ) : ∃ r phi, polarCentre x y = (r, phi) ∧ 0 ≤ r ∧ r ^ 2 = x ^ 2 + y ^ 2 ∧
    0 ≤ phi ∧ phi < 360 ∧ x = r * Real.sin (phi * π / 180) ∧ y = -(r * Real.cos (phi * π / 180)) := by
  have hp := pi_pos
  have hcs : ∀ phi, (phi = degrees (atan2 y x) + 90 ∨ phi = degrees (atan2 y x) + 90 + 360) →
      x = √(x ^ 2 + y ^ 2) * Real.sin (phi * π / 180) ∧ y = -(√(x ^ 2 + y ^ 2) * Real.cos (phi * π / 180)) := by
    have h1 : (degrees (atan2 y x) + 90) * π / 180 = atan2 y x + π / 2 := by unfold degrees; field_simp; ring
    have h2 : (degrees (atan2 y x) + 90 + 360) * π / 180 = atan2 y x + π / 2 + 2 * π := by
      unfold degrees; field_simp; ring
    have e1 := atan2_cos x y
    have e2 := atan2_sin x y
    rintro phi (rfl | rfl)
    · rw [h1, Real.sin_add_pi_div_two, Real.cos_add_pi_div_two]
      exact ⟨e1.symm, by linarith⟩
    · rw [h2, Real.sin_add_two_pi, Real.cos_add_two_pi, Real.sin_add_pi_div_two, Real.cos_add_pi_div_two]
      exact ⟨e1.symm, by linarith⟩
  have hlo : -180 < degrees (atan2 y x) := by
    have := Complex.neg_pi_lt_arg (⟨x, y⟩ : ℂ)
    unfold degrees
    rw [lt_div_iff₀ hp]
    change -π < atan2 y x at this
    linarith
  have hhi : degrees (atan2 y x) ≤ 180 := by
    have := Complex.arg_le_pi (⟨x, y⟩ : ℂ)
    unfold degrees
    rw [div_le_iff₀ hp]
    change atan2 y x ≤ π at this
    linarith
  refine ⟨_, _, rfl, Real.sqrt_nonneg _, Real.sq_sqrt (by positivity), ?_⟩
  split_ifs with h
  · exact ⟨by linarith, by linarith, hcs _ (.inr rfl)⟩
  · exact ⟨by linarith, by linarith, hcs _ (.inl rfl)⟩

/-! ### C33: the time window -/

/-- The time is in the closed window; a missing end does not limit. -/
def InWindow (stime etime : Option ℤ) (t : ℤ) : Prop := (∀ s, stime = some s → s ≤ t) ∧ ∀ e, etime = some e → t ≤ e

open Classical in
/-- The rows of the file in the window, in file order. -/
noncomputable def windowRows {Row : Type} (stime etime : Option ℤ) (file : List (ℤ × Row)) : List (ℤ × Row) :=
  file.filter fun p => decide (InWindow stime etime p.1)

theorem window_test (stime etime : Option ℤ) (t : ℤ) :
    ((stime.all fun s => decide (s ≤ t)) && (etime.all fun e => decide (t ≤ e))) = true ↔ InWindow stime etime t := by
  unfold InWindow
  cases stime <;> cases etime <;> simp

theorem loadLoop_out {Row : Type} (stime etime : Option ℤ) (pre file : List (ℤ × Row)) :
    (loadLoop stime etime pre.length (file.map (·.1))).1 = (windowRows stime etime file).map (·.1) ∧
    mapE (fun (i : ℕ) => pyIdx ((pre ++ file).map (·.2)) (i : ℤ)) (loadLoop stime etime pre.length (file.map (·.1))).2
      = .ok ((windowRows stime etime file).map (·.2)) := by
  induction file generalizing pre with
  | nil => simp [loadLoop, windowRows, mapE]
  | cons p file ih =>
    have h := ih (pre ++ [p])
    simp only [List.length_append, List.length_cons, List.length_nil, Nat.zero_add, List.append_assoc,
      List.singleton_append] at h
    have hidx : pyIdx ((pre ++ p :: file).map (·.2)) ((pre.length : ℕ) : ℤ) = .ok p.2 := by
      simp [pyIdx, pyGet]
    simp only [List.map_cons, loadLoop]
    by_cases hw : InWindow stime etime p.1
    · rw [if_pos ((window_test _ _ _).2 hw)]
      have hf : windowRows stime etime (p :: file) = p :: windowRows stime etime file := by
        simp [windowRows, hw]
      rw [hf]
      refine ⟨by simp [h.1], ?_⟩
      simp only [mapE, hidx, h.2, List.map_cons]
    · rw [if_neg (fun hc => hw ((window_test _ _ _).1 hc))]
      have hf : windowRows stime etime (p :: file) = windowRows stime etime file := by
        simp [windowRows, hw]
      rw [hf]
      exact h

/-- The correction functions accepted for `n` records. -/
theorem setFns_length {F : Type} (c e : F) (inst : String) (n : ℕ) (a : FnArg F) (fs : List F)
    (h : setFns c e inst n a = .ok fs) : fs.length = n := by
  unfold setFns at h
  split at h
  · split_ifs at h
    · cases h; simp
    · cases h; simp
  · cases h; simp
  · split_ifs at h with hl
    cases h; exact hl
  · cases h

/-- C33, partial: for every file that does not consist of one row, `load` either fails because of the correction argument
or leaves exactly the rows of the closed window, in file order, one entry per record everywhere, and the cursor before
the first record.  Missing: files of one row (see `C33_one_row_refuted`). -/
theorem C33_load_window_partial {Row F : Type} (c e : F) (inst : String) (rf : FnArg F) (file : List (ℤ × Row))
    (hne : file.length ≠ 1) (stime etime : Option ℤ) :
    match load c e inst rf file stime etime with
    | .ok o => o.recInd = -1 ∧ o.records = (windowRows stime etime file).length ∧
        o.dtime = (windowRows stime etime file).map (·.1) ∧ o.rows = (windowRows stime etime file).map (·.2) ∧
        o.rfunc.length = o.records
    | .error err => err = .valueError ∧ setFns c e inst (windowRows stime etime file).length rf = .error .valueError := by
  have key : ∃ is, (if stime = none ∧ etime = none then (file.map (·.1), List.range file.length)
      else loadLoop stime etime 0 (file.map (·.1))) = ((windowRows stime etime file).map (·.1), is) ∧
      mapE (fun (i : ℕ) => pyIdx (file.map (·.2)) (i : ℤ)) is = .ok ((windowRows stime etime file).map (·.2)) := by
    have h := loadLoop_out stime etime [] file
    simp only [List.length_nil, List.nil_append] at h
    by_cases hn : stime = none ∧ etime = none
    · have hf : windowRows stime etime file = file := by
        obtain ⟨rfl, rfl⟩ := hn
        simp [windowRows, InWindow]
      refine ⟨List.range file.length, by rw [if_pos hn, hf], ?_⟩
      rw [hf]
      have hg : ∀ i ∈ List.range file.length, ∃ b, pyIdx (file.map (·.2)) (i : ℤ) = .ok b := by
        intro i hi
        rw [List.mem_range] at hi
        exact ⟨(file[i]).2, by simp [pyIdx, pyGet, hi]⟩
      obtain ⟨bs, hbs⟩ := mapE_ok hg
      obtain ⟨h1, h2⟩ := mapE_get hbs
      rw [hbs]
      congr 1
      apply List.ext_getElem?
      intro i
      by_cases hi : i < file.length
      · obtain ⟨b, hb1, hb2⟩ := h2 i i (by simp [hi])
        rw [hb1]
        simp only [pyIdx, pyGet, Int.natCast_nonneg, ↓reduceIte, Int.toNat_natCast, List.getElem?_map,
          List.getElem?_eq_getElem hi, Option.map_some] at hb2
        simp only [Except.ok.injEq] at hb2
        simp [hi, hb2]
      · rw [List.getElem?_eq_none (by simp at h1; omega), List.getElem?_eq_none (by simp; omega)]
    · exact ⟨_, by rw [if_neg hn, ← h.1], h.2⟩
  obtain ⟨is, k1, k2⟩ := key
  unfold load
  rw [if_neg hne]
  simp only [k1, k2]
  cases hf : setFns c e inst ((windowRows stime etime file).map (·.1)).length rf with
  | error err =>
    simp only [List.length_map] at hf ⊢
    have : err = .valueError := by
      unfold setFns at hf
      split at hf
      · split_ifs at hf; cases hf; rfl
      · cases hf
      · split_ifs at hf; cases hf; rfl
      · cases hf; rfl
    exact ⟨this, by rw [hf, this]⟩
  | ok fs =>
    simp only []
    exact ⟨trivial, by simp, trivial, trivial, setFns_length _ _ _ _ _ _ hf⟩

/-- C33: loading the same file with a window inside another one gives the rows that the outer window kept, cut to the
inner window. -/
theorem C33_nested_windows {Row F : Type} (c e : F) (inst : String) (rf rf' : FnArg F) (file : List (ℤ × Row))
    (s s' u u' : Option ℤ) (hin : ∀ t, InWindow s' u' t → InWindow s u t) (o o' : Loaded Row F)
    (ho : load c e inst rf file s u = .ok o) (ho' : load c e inst rf' file s' u' = .ok o') :
    o'.dtime.zip o'.rows = windowRows s' u' (o.dtime.zip o.rows) := by
  have hne : file.length ≠ 1 := by
    intro h
    rw [load, if_pos h] at ho; cases ho
  have h1 := C33_load_window_partial c e inst rf file hne s u
  have h2 := C33_load_window_partial c e inst rf' file hne s' u'
  rw [ho] at h1
  rw [ho'] at h2
  obtain ⟨-, -, a1, a2, -⟩ := h1
  obtain ⟨-, -, b1, b2, -⟩ := h2
  have hz : ∀ l : List (ℤ × Row), (l.map (·.1)).zip (l.map (·.2)) = l := by
    intro l; induction l with
    | nil => rfl
    | cons a l ih => simp [ih]
  rw [a1, a2, b1, b2, hz, hz]
  unfold windowRows
  rw [List.filter_filter]
  apply List.filter_congr
  intro p _
  by_cases h : InWindow s' u' p.1
  · simp [h, hin p.1 h]
  · simp [h]

example : ∀ t, InWindow (some 15) (some 20) t → InWindow (some 10) none t := by
  rintro t ⟨h1, h2⟩
  refine ⟨?_, by simp⟩
  rintro s ⟨⟩
  have := h1 15 rfl
  omega

/-- C33 is false for a file of one row: `load` raises `IndexError` whatever the window. -/
theorem C33_one_row_refuted {Row F : Type} (c e : F) (inst : String) (rf : FnArg F) (t : ℤ) (r : Row)
    (s u : Option ℤ) : load c e inst rf [(t, r)] s u = .error .indexError := rfl

example : load (0 : ℕ) 1 "ampere" .dflt [(10, "a"), (20, "b"), (30, "c")] (some 15) (some 20) =
    .ok ⟨-1, 1, [20], ["b"], [1]⟩ := by
  simp [load, loadLoop, setFns, mapE, pyIdx, pyGet]

end Ocb.Coord
