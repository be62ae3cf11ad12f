import Verif.Model.BoundLon
import Verif.Props.Load

/-!
# C180: the stored boundary longitudes
-/

set_option autoImplicit false

namespace Ocb.Coord

/-- One slot per record in every list that exists. -/
def LonStore.WF (n : ℕ) (s : LonStore) : Prop := s.base.WF n ∧ ∀ l, s.lons = some l → l.length = n

/-- The stored longitudes of record `k`, `none` when nothing is stored. -/
def LonStore.lonAt (s : LonStore) (k : ℕ) : Option (List (Option ℝ)) := (s.lons.bind (·[k]?)).join

/-- No record whose longitudes would be calculated makes the conversion raise. -/
def ConvFine (conv : LonConv) (mlt : List (Option ℝ)) (setLon : Bool) (k : ℕ) : Prop :=
  setLon = true → ∃ w, conv k mlt = .ok w

/-- The longitudes after a replaced record: those of the conversion if it worked, else what was there. -/
def LonAfter (conv : LonConv) (mlt : List (Option ℝ)) (setLon : Bool) (k : ℕ) (old new : Option (List (Option ℝ))) : Prop :=
  (setLon = true ∧ ∃ w, conv k mlt = .ok w ∧ new = some w) ∨
    (setLon = true ∧ (∃ e, conv k mlt = .error e) ∧ new = old) ∨ (setLon = false ∧ new = old)

theorem lonLoop_out (recs : List Rec) (conv : LonConv) (ref : ℕ) (mlt : List (Option ℝ)) (ow sl : Bool) (inds : List ℤ)
    (lats : List (Option (List (Option ℝ)))) (mlts : List (Option ℕ)) (lons : List (Option (List (Option ℝ))))
    (hl : lats.length = recs.length) (hm : mlts.length = recs.length) (hn : lons.length = recs.length) :
    ∃ L M N e, lonLoop recs conv ref mlt ow sl inds lats mlts lons = (L, M, N, e) ∧ L.length = recs.length ∧
      M.length = recs.length ∧ N.length = recs.length ∧
      (∀ k : ℕ, (L[k]? = lats[k]? ∧ M[k]? = mlts[k]? ∧ N[k]? = lons[k]?) ∨
        (∃ i ∈ inds, pyPos recs.length i = some k) ∧ (lats[k]? = some none ∨ ow = true) ∧
          (∃ B v, recs[k]? = some B ∧ mapE (boundaryEntry B) mlt = .ok v ∧ L[k]? = some (some v) ∧
            M[k]? = some (some ref)) ∧ LonAfter conv mlt sl k (lons[k]?).join (N[k]?).join) ∧
      (e = none → ∀ i ∈ inds, ∀ k : ℕ, pyPos recs.length i = some k → (lats[k]? = some none ∨ ow = true) →
          ∃ B v, recs[k]? = some B ∧ mapE (boundaryEntry B) mlt = .ok v ∧ L[k]? = some (some v) ∧
            M[k]? = some (some ref)) ∧
      (e = none ↔ (∀ i ∈ inds, -(recs.length : ℤ) ≤ i ∧ i < recs.length) ∧
        ∀ i ∈ inds, ∀ k : ℕ, pyPos recs.length i = some k → (lats[k]? = some none ∨ ow = true) → ConvFine conv mlt sl k) := by
  induction inds generalizing lats mlts lons with
  | nil => exact ⟨lats, mlts, lons, none, rfl, hl, hm, hn, fun k => .inl ⟨rfl, rfl, rfl⟩, by simp, by simp⟩
  | cons i is ih =>
    unfold lonLoop
    rw [hl]
    cases hp : pyPos recs.length i with
    | none =>
      refine ⟨lats, mlts, lons, _, rfl, hl, hm, hn, fun k => .inl ⟨rfl, rfl, rfl⟩, by simp, ?_⟩
      have := pyPos_none.1 hp
      simp only [reduceCtorEq, false_iff]
      intro h
      exact this (h.1 i List.mem_cons_self)
    | some k =>
      have hk := (pyPos_some.1 hp).1
      have hir : -(recs.length : ℤ) ≤ i ∧ i < recs.length := by
        by_contra h
        rw [pyPos_none.2 h] at hp; cases hp
      simp only []
      by_cases hc : lats[k]? = some none ∨ ow = true
      · rw [if_pos hc]
        obtain ⟨v, hv⟩ := latsFor_total recs[k] mlt
        have hrk : recs[k]? = some recs[k] := List.getElem?_eq_getElem hk
        simp only [hrk, hv]
        have hset : ∀ k' : ℕ, k' ≠ k → (lats.set k (some v))[k']? = lats[k']? ∧ (mlts.set k (some ref))[k']? = mlts[k']? :=
          fun k' hne => ⟨List.getElem?_set_ne (Ne.symm hne), List.getElem?_set_ne (Ne.symm hne)⟩
        have hself : (lats.set k (some v))[k]? = some (some v) ∧ (mlts.set k (some ref))[k]? = some (some ref) := by
          rw [List.getElem?_set_self (by omega), List.getElem?_set_self (by omega)]
          exact ⟨rfl, rfl⟩
        -- the rest of the loop, started from lists of longitudes that differ at most in slot `k`
        have rest : ∀ lons' : List (Option (List (Option ℝ))), lons'.length = recs.length →
            (∀ k' : ℕ, k' ≠ k → lons'[k']? = lons[k']?) → LonAfter conv mlt sl k (lons[k]?).join (lons'[k]?).join →
            ConvFine conv mlt sl k →
            ∃ L M N e, lonLoop recs conv ref mlt ow sl is (lats.set k (some v)) (mlts.set k (some ref)) lons' = (L, M, N, e) ∧
              L.length = recs.length ∧ M.length = recs.length ∧ N.length = recs.length ∧
              (∀ k : ℕ, (L[k]? = lats[k]? ∧ M[k]? = mlts[k]? ∧ N[k]? = lons[k]?) ∨
                (∃ i' ∈ i :: is, pyPos recs.length i' = some k) ∧ (lats[k]? = some none ∨ ow = true) ∧
                  (∃ B v, recs[k]? = some B ∧ mapE (boundaryEntry B) mlt = .ok v ∧ L[k]? = some (some v) ∧
                    M[k]? = some (some ref)) ∧ LonAfter conv mlt sl k (lons[k]?).join (N[k]?).join) ∧
              (e = none → ∀ i' ∈ i :: is, ∀ k : ℕ, pyPos recs.length i' = some k → (lats[k]? = some none ∨ ow = true) →
                  ∃ B v, recs[k]? = some B ∧ mapE (boundaryEntry B) mlt = .ok v ∧ L[k]? = some (some v) ∧
                    M[k]? = some (some ref)) ∧
              (e = none ↔ (∀ i' ∈ i :: is, -(recs.length : ℤ) ≤ i' ∧ i' < recs.length) ∧
                ∀ i' ∈ i :: is, ∀ k : ℕ, pyPos recs.length i' = some k → (lats[k]? = some none ∨ ow = true) →
                  ConvFine conv mlt sl k) := by
          intro lons' hn' hne hla hcf
          obtain ⟨L, M, N, e, h0, h1, h2, h2', h3, h4, h5⟩ := ih (lats.set k (some v)) (mlts.set k (some ref)) lons'
            (by simpa using hl) (by simpa using hm) hn'
          have hLk : L[k]? = some (some v) ∧ M[k]? = some (some ref) := by
            rcases h3 k with h | ⟨-, -, ⟨B, v', hB, hv', hL', hM'⟩, -⟩
            · rw [h.1, h.2.1]; exact hself
            · rw [hrk] at hB
              obtain rfl : recs[k] = B := by simpa using hB
              rw [hv] at hv'
              obtain rfl : v = v' := by simpa using hv'
              exact ⟨hL', hM'⟩
          refine ⟨L, M, N, e, h0, h1, h2, h2', ?_, ?_, ?_⟩
          · intro k'
            by_cases hkk : k' = k
            · subst hkk
              refine .inr ⟨⟨i, List.mem_cons_self, hp⟩, hc, ⟨_, v, hrk, hv, hLk⟩, ?_⟩
              rcases h3 k' with h | ⟨-, -, -, h⟩
              · rw [h.2.2]; exact hla
              · rcases h with ⟨hs, w, hw, hN⟩ | ⟨hs, ⟨e', he'⟩, hN⟩ | ⟨hs, hN⟩
                · exact .inl ⟨hs, w, hw, hN⟩
                · obtain ⟨w, hw⟩ := hcf hs
                  rw [hw] at he'; cases he'
                · rw [hN]; exact hla
            · rw [← (hset k' hkk).1, ← (hset k' hkk).2, ← hne k' hkk]
              rcases h3 k' with h | ⟨⟨i', hi', hp'⟩, h⟩
              · exact .inl h
              · exact .inr ⟨⟨i', List.mem_cons_of_mem _ hi', hp'⟩, h⟩
          · intro he i' hi' k' hp' hc'
            by_cases hkk : k' = k
            · subst hkk
              exact ⟨_, v, hrk, hv, hLk⟩
            · rw [← (hset k' hkk).1] at hc'
              rcases List.mem_cons.1 hi' with rfl | hi'
              · rw [hp] at hp'; exact absurd (by simpa using hp'.symm) hkk
              · exact h4 he i' hi' k' hp' hc'
          · rw [h5]
            constructor
            · rintro ⟨ha, hb⟩
              refine ⟨?_, ?_⟩
              · intro i' hi'
                rcases List.mem_cons.1 hi' with rfl | hi'
                · exact hir
                · exact ha i' hi'
              · intro i' hi' k' hp' hc'
                by_cases hkk : k' = k
                · subst hkk; exact hcf
                · rcases List.mem_cons.1 hi' with rfl | hi'
                  · rw [hp] at hp'; exact absurd (by simpa using hp'.symm) hkk
                  · exact hb i' hi' k' hp' (by rwa [(hset k' hkk).1])
            · rintro ⟨ha, hb⟩
              refine ⟨fun i' hi' => ha i' (List.mem_cons_of_mem _ hi'), ?_⟩
              intro i' hi' k' hp' hc'
              by_cases hkk : k' = k
              · subst hkk; exact hcf
              · exact hb i' (List.mem_cons_of_mem _ hi') k' hp' (by rwa [(hset k' hkk).1] at hc')
        by_cases hs : sl = true
        · rw [if_pos hs]
          cases hw : conv k mlt with
          | error e =>
            simp only []
            refine ⟨_, _, _, _, rfl, by simpa using hl, by simpa using hm, hn, ?_, by simp, ?_⟩
            · intro k'
              by_cases hkk : k' = k
              · subst hkk
                exact .inr ⟨⟨i, List.mem_cons_self, hp⟩, hc, ⟨_, v, hrk, hv, hself⟩, .inr (.inl ⟨hs, ⟨e, hw⟩, rfl⟩)⟩
              · exact .inl ⟨(hset k' hkk).1, (hset k' hkk).2, rfl⟩
            · simp only [reduceCtorEq, false_iff]
              rintro ⟨-, h⟩
              obtain ⟨w, hw'⟩ := h i List.mem_cons_self k hp hc hs
              rw [hw] at hw'; cases hw'
          | ok w =>
            simp only []
            refine rest (lons.set k (some w)) (by simpa using hn) (fun k' h => List.getElem?_set_ne (Ne.symm h)) ?_
              (fun _ => ⟨w, hw⟩)
            refine .inl ⟨hs, w, hw, ?_⟩
            rw [List.getElem?_set_self (by omega)]; rfl
        · rw [if_neg hs]
          have hs' : sl = false := by simpa using hs
          exact rest lons hn (fun _ _ => rfl) (.inr (.inr ⟨hs', rfl⟩)) (fun h => absurd h hs)
      · rw [if_neg hc]
        obtain ⟨L, M, N, e, h0, h1, h2, h2', h3, h4, h5⟩ := ih lats mlts lons hl hm hn
        refine ⟨L, M, N, e, h0, h1, h2, h2', ?_, ?_, ?_⟩
        · intro k'
          rcases h3 k' with h | ⟨⟨i', hi', hp'⟩, h⟩
          · exact .inl h
          · exact .inr ⟨⟨i', List.mem_cons_of_mem _ hi', hp'⟩, h⟩
        · intro he i' hi' k' hp' hc'
          rcases List.mem_cons.1 hi' with rfl | hi'
          · rw [hp] at hp'
            obtain rfl : k = k' := by simpa using hp'
            exact absurd hc' hc
          · exact h4 he i' hi' k' hp' hc'
        · rw [h5]
          simp only [List.mem_cons, forall_eq_or_imp]
          constructor
          · rintro ⟨ha, hb⟩
            refine ⟨⟨hir, ha⟩, ?_, hb⟩
            intro k' hp' hc'
            rw [hp] at hp'
            obtain rfl : k = k' := by simpa using hp'
            exact absurd hc' hc
          · rintro ⟨⟨-, ha⟩, -, hb⟩
            exact ⟨ha, hb⟩

theorem requested_iff (n : ℕ) (rinds : Option (List ℤ)) (k : ℕ) :
    (∃ i ∈ rinds.getD ((List.range n).map (Int.ofNat ·)), pyPos n i = some k) ↔ Requested n rinds k := by
  simp only [pyPos_some, Requested]
  cases rinds with
  | none =>
    simp only [Option.getD_none, List.mem_map, List.mem_range, reduceCtorEq, false_implies, implies_true, and_true]
    constructor
    · rintro ⟨i, -, h, -⟩; exact h
    · intro h; exact ⟨k, ⟨k, h, rfl⟩, h, .inl rfl⟩
  | some l =>
    simp only [Option.getD_some, Option.some.injEq, forall_eq']
    constructor
    · rintro ⟨i, hi, h, rfl | rfl⟩
      · exact ⟨h, .inl hi⟩
      · exact ⟨h, .inr hi⟩
    · rintro ⟨h, hi | hi⟩
      · exact ⟨_, hi, h, .inl rfl⟩
      · exact ⟨_, hi, h, .inr rfl⟩

theorem inRange_iff (n : ℕ) (rinds : Option (List ℤ)) :
    (∀ i ∈ rinds.getD ((List.range n).map (Int.ofNat ·)), -(n : ℤ) ≤ i ∧ i < n) ↔ InRange n rinds := by
  unfold InRange
  cases rinds with
  | none => simp
  | some l => exact ⟨by rintro h l ⟨⟩; exact h, fun h => h l rfl⟩

/-- C180: what one call does to the stored longitudes, whatever was stored before.  A record keeps latitudes, local times
and longitudes together, or it was requested and could be replaced: then it has the new latitudes and local times, and
with `set_lon` the longitudes of these local times at the time of this record — unless the conversion raised, in which
case the old longitudes remain, as they do without `set_lon`.  The call succeeds exactly if all indices exist and no
conversion raises, and then all requested records that could be replaced have been. -/
theorem C180_call (recs : List Rec) (conv : LonConv) (s : LonStore) (hs : s.WF recs.length) (ref : ℕ)
    (rinds : Option (List ℤ)) (ow sl : Bool) (mlt : List (Option ℝ)) (hmlt : mlt = (s.base.heap ref).map (Option.map wrapMlt)) :
    ∃ s' e, getBoundaryLon recs conv s ref rinds ow sl = (s', e) ∧ s'.WF recs.length ∧
      s'.base.heap = Function.update s.base.heap ref mlt ∧
      (e = none ↔ InRange recs.length rinds ∧
        ∀ k, Requested recs.length rinds k → (s.base.slot k = none ∨ ow = true) → sl = true → ∃ w, conv k mlt = .ok w) ∧
      (∀ k, (s'.base.slot k = s.base.slot k ∧ s'.base.slotMlt k = s.base.slotMlt k ∧ s'.lonAt k = s.lonAt k) ∨
        (Requested recs.length rinds k ∧ (s.base.slot k = none ∨ ow = true) ∧
          (∃ B v, recs[k]? = some B ∧ s'.base.slot k = some v ∧ LatsFor B mlt v ∧ s'.base.slotMlt k = some ref) ∧
          ((sl = true ∧ ∃ w, conv k mlt = .ok w ∧ s'.lonAt k = some w) ∨
            (sl = true ∧ (∃ x, conv k mlt = .error x) ∧ s'.lonAt k = s.lonAt k) ∨
            (sl = false ∧ s'.lonAt k = s.lonAt k)))) ∧
      (e = none → ∀ k, Requested recs.length rinds k → (s.base.slot k = none ∨ ow = true) →
        ∃ B v, recs[k]? = some B ∧ s'.base.slot k = some v ∧ LatsFor B mlt v ∧ s'.base.slotMlt k = some ref) := by
  subst hmlt
  set n := recs.length with hn
  set mlt := (s.base.heap ref).map (Option.map wrapMlt) with hmlt
  set lats := s.base.lats.getD (List.replicate n none) with hlats
  set mlts := s.base.mlts.getD (List.replicate n none) with hmlts
  set lons := s.lons.getD (List.replicate n none) with hlons
  have hl : lats.length = n := by
    rw [hlats]; cases h : s.base.lats with
    | none => simp
    | some l => simpa using hs.1.1 l h
  have hm : mlts.length = n := by
    rw [hmlts]; cases h : s.base.mlts with
    | none => simp
    | some l => simpa using hs.1.2 l h
  have hlo : lons.length = n := by
    rw [hlons]; cases h : s.lons with
    | none => simp
    | some l => simpa using hs.2 l h
  obtain ⟨L, M, N, e, h0, h1, h2, h2', h3, h4, h5⟩ := lonLoop_out recs conv ref mlt ow sl
    (rinds.getD ((List.range n).map (Int.ofNat ·))) lats mlts lons hl hm hlo
  have hslot : ∀ k, lats[k]?.join = s.base.slot k := fun k => getD_replicate_slot s.base.lats n k
  have hslotm : ∀ k, mlts[k]?.join = s.base.slotMlt k := fun k => getD_replicate_slot s.base.mlts n k
  have hslotl : ∀ k, lons[k]?.join = s.lonAt k := fun k => getD_replicate_slot s.lons n k
  have hempty : ∀ k, k < n → (s.base.slot k = none ↔ lats[k]? = some none) := by
    intro k hk
    rw [← hslot, List.getElem?_eq_getElem (by omega)]
    simp
  have hlon' : ∀ k, (⟨⟨Function.update s.base.heap ref mlt, some L, some M⟩, if sl = true then some N else s.lons⟩
      : LonStore).lonAt k = if sl = true then (N[k]?).join else s.lonAt k := by
    intro k
    unfold LonStore.lonAt
    split_ifs <;> rfl
  refine ⟨⟨⟨Function.update s.base.heap ref mlt, some L, some M⟩, if sl = true then some N else s.lons⟩, e, ?_, ?_, rfl,
    ?_, ?_, ?_⟩
  · unfold getBoundaryLon
    simp only [← hn, ← hlats, ← hmlts, ← hlons, ← hmlt, h0]
  · refine ⟨⟨by rintro l ⟨⟩; exact h1, by rintro l ⟨⟩; exact h2⟩, ?_⟩
    intro l h
    simp only at h
    split_ifs at h
    · cases h; exact h2'
    · exact hs.2 l h
  · rw [h5, inRange_iff]
    refine and_congr_right fun _ => ?_
    constructor
    · intro h k hr hc
      obtain ⟨i, hi, hp⟩ := (requested_iff n rinds k).2 hr
      exact h i hi k hp (by rwa [← hempty k hr.1])
    · intro h i hi k hp hc
      have hr := (requested_iff n rinds k).1 ⟨i, hi, hp⟩
      exact h k hr (by rwa [hempty k hr.1])
  · intro k
    rw [hlon']
    rcases h3 k with ⟨ha, hb, hc⟩ | ⟨hr, hc, ⟨B, v, hB, hv, hL, hM⟩, hla⟩
    · left
      rw [← hslot, ← hslotm, ← hslotl, ← ha, ← hb, ← hc]
      refine ⟨rfl, rfl, ?_⟩
      split_ifs with h
      · rfl
      · rw [hc, hslotl]
    · right
      have hr' := (requested_iff n rinds k).1 hr
      refine ⟨hr', by rwa [hempty k hr'.1], ⟨B, v, hB, by simp [Store.slot, hL], (latsFor_iff _ _ _).1 hv,
        by simp [Store.slotMlt, hM]⟩, ?_⟩
      rw [hslotl] at hla
      rcases hla with ⟨hs, w, hw, hN⟩ | ⟨hs, ⟨x, hx⟩, hN⟩ | ⟨hs, hN⟩
      · rw [if_pos hs]; exact .inl ⟨hs, w, hw, hN⟩
      · rw [if_pos hs]; exact .inr (.inl ⟨hs, ⟨x, hx⟩, hN⟩)
      · rw [if_neg (by simp [hs])]; exact .inr (.inr ⟨hs, rfl⟩)
  · intro he k hr hc
    obtain ⟨i, hi, hp⟩ := (requested_iff n rinds k).2 hr
    obtain ⟨B, v, hB, hv, hL, hM⟩ := h4 he i hi k hp (by rwa [← hempty k hr.1])
    exact ⟨B, v, hB, by simp [Store.slot, hL], (latsFor_iff _ _ _).1 hv, by simp [Store.slotMlt, hM]⟩

/-- The loops agree on latitudes and local times as long as no conversion raises. -/
theorem lonLoop_base (recs : List Rec) (conv : LonConv) (ref : ℕ) (mlt : List (Option ℝ)) (ow sl : Bool) (inds : List ℤ)
    (lats : List (Option (List (Option ℝ)))) (mlts : List (Option ℕ)) (lons : List (Option (List (Option ℝ))))
    (hc : sl = true → ∀ k, ∃ w, conv k mlt = .ok w) :
    cacheLoop recs ref mlt ow inds lats mlts = ((lonLoop recs conv ref mlt ow sl inds lats mlts lons).1,
      (lonLoop recs conv ref mlt ow sl inds lats mlts lons).2.1,
      (lonLoop recs conv ref mlt ow sl inds lats mlts lons).2.2.2) := by
  induction inds generalizing lats mlts lons with
  | nil => rfl
  | cons i is ih =>
    unfold lonLoop cacheLoop
    cases pyPos lats.length i with
    | none => rfl
    | some k =>
      simp only []
      split_ifs with h1 h2
      · cases recs[k]? with
        | none => rfl
        | some B =>
          simp only []
          cases mapE (boundaryEntry B) mlt with
          | error e => rfl
          | ok v =>
            obtain ⟨w, hw⟩ := hc h2 k
            simp only [hw]
            exact ih _ _ _
      · cases recs[k]? with
        | none => rfl
        | some B =>
          simp only []
          cases mapE (boundaryEntry B) mlt with
          | error e => rfl
          | ok v => exact ih _ _ _
      · exact ih _ _ _

/-- C180: as far as latitudes and local times go, `set_lon` makes no difference unless a conversion raises. -/
theorem C180_lats (recs : List Rec) (conv : LonConv) (s : LonStore) (ref : ℕ) (rinds : Option (List ℤ)) (ow sl : Bool)
    (hc : sl = true → ∀ k m, ∃ w, conv k m = .ok w) :
    getBoundaryLat recs s.base ref rinds ow =
      ((getBoundaryLon recs conv s ref rinds ow sl).1.base, (getBoundaryLon recs conv s ref rinds ow sl).2) := by
  unfold getBoundaryLat getBoundaryLon
  simp only [lonLoop_base recs conv ref _ ow sl _ _ _ (s.lons.getD (List.replicate recs.length none))
    (fun h k => hc h k _)]

/-- The stored longitudes are those of the stored local times, for the records that have any; and exactly the records
with latitudes have longitudes. -/
def LonStore.Consistent (conv : LonConv) (s : LonStore) : Prop :=
  ∀ k, (s.base.slot k = none ∧ s.lonAt k = none) ∨
    ∃ a w, s.base.slot k ≠ none ∧ s.base.slotMlt k = some a ∧ s.lonAt k = some w ∧ conv k (s.base.heap a) = .ok w

/-- C180 where it holds: in a session in which every call sets the longitudes, the conversion never raises and does not
distinguish local times a day apart, and the caller leaves the arrays alone, the stored longitudes are always those of
the stored local times at the time of their record.  Missing: sessions with a call without `set_lon` (as the
`DualBoundary` methods make), a conversion that raises. -/
theorem C180_session_partial (recs : List Rec) (conv : LonConv) (s : LonStore) (hs : s.WF recs.length)
    (hcs : s.Consistent conv) (hok : ∀ k m, ∃ w, conv k m = .ok w)
    (hday : ∀ k m, conv k (m.map (Option.map wrapMlt)) = conv k m) (ops : List LonCall) (hops : ∀ o ∈ ops, o.setLon = true) :
    (runLon recs conv s ops).Consistent conv := by
  unfold runLon
  induction ops generalizing s with
  | nil => exact hcs
  | cons o ops ih =>
    obtain ⟨s', e, h, hw, hh, -, h3, -⟩ := C180_call recs conv s hs o.ref o.rinds o.overwrite o.setLon _ rfl
    rw [List.foldl_cons, h]
    refine ih s' hw ?_ fun o ho => hops o (List.mem_cons_of_mem _ ho)
    intro k
    rcases h3 k with ⟨ha, hb, hc⟩ | ⟨-, -, ⟨B, v, -, hv, -, hm⟩, hl⟩
    · rw [ha, hb, hc]
      rcases hcs k with hk | ⟨a, w, h1, h2, h4, h5⟩
      · exact .inl hk
      · refine .inr ⟨a, w, h1, h2, h4, ?_⟩
        rw [hh]
        by_cases har : a = o.ref
        · subst har
          rw [Function.update_self, hday, h5]
        · rw [Function.update_of_ne har, h5]
    · rcases hl with ⟨-, w, hw', hlo⟩ | ⟨-, ⟨x, hx⟩, -⟩ | ⟨hf, -⟩
      · refine .inr ⟨o.ref, w, by rw [hv]; simp, hm, hlo, ?_⟩
        rw [hh, Function.update_self, hw']
      · obtain ⟨w, hw'⟩ := hok k ((s.base.heap o.ref).map (Option.map wrapMlt))
        rw [hw'] at hx; cases hx
      · rw [hops o List.mem_cons_self] at hf; cases hf

/-- The object before the first call. -/
def LonStore.fresh (heap : ℕ → List (Option ℝ)) : LonStore := ⟨⟨heap, none, none⟩, none⟩

theorem LonStore.fresh_wf (heap : ℕ → List (Option ℝ)) (n : ℕ) : (LonStore.fresh heap).WF n :=
  ⟨⟨by simp [fresh], by simp [fresh]⟩, by simp [fresh]⟩

/-- C180 is false with `overwrite` and without `set_lon`: the record gets new latitudes and local times and keeps the
longitudes of the old ones.  So it is for every record of every boundary, every conversion that works and every two
arrays. -/
theorem C180_stale_refuted (recs : List Rec) (conv : LonConv) (hok : ∀ k m, ∃ w, conv k m = .ok w)
    (heap : ℕ → List (Option ℝ)) (k : ℕ) (hk : k < recs.length) (a b : ℕ) (hab : a ≠ b)
    (hne : conv k ((heap a).map (Option.map wrapMlt)) ≠ conv k ((heap b).map (Option.map wrapMlt))) :
    ∃ s w, runLon recs conv (.fresh heap) [⟨a, some [(k : ℤ)], false, true⟩, ⟨b, some [(k : ℤ)], true, false⟩] = s ∧
      s.base.slotMlt k = some b ∧ s.base.heap b = (heap b).map (Option.map wrapMlt) ∧ s.lonAt k = some w ∧
      conv k ((heap a).map (Option.map wrapMlt)) = .ok w ∧ ¬ s.Consistent conv := by
  obtain ⟨s1, e1, h1, hw1, hh1, he1, hk1, hf1⟩ := C180_call recs conv (.fresh heap) (LonStore.fresh_wf heap _) a
    (some [(k : ℤ)]) false true _ rfl
  have hreq : Requested recs.length (some [(k : ℤ)]) k := ⟨hk, by rintro l ⟨⟩; simp⟩
  have hin : InRange recs.length (some [(k : ℤ)]) := by rintro l ⟨⟩ i hi; simp at hi; omega
  obtain ⟨w, hw⟩ := hok k ((heap a).map (Option.map wrapMlt))
  have hl1 : s1.lonAt k = some w := by
    obtain ⟨B, v, -, hv, -, hm⟩ := hf1 (he1.2 ⟨hin, fun k _ _ _ => hok k _⟩) k hreq (.inl rfl)
    rcases hk1 k with ⟨h, -, -⟩ | ⟨-, -, -, h⟩
    · rw [hv] at h; cases h
    · rcases h with ⟨-, w', hw', h⟩ | ⟨-, ⟨x, hx⟩, -⟩ | ⟨h, -⟩
      · have : conv k ((heap a).map (Option.map wrapMlt)) = .ok w' := hw'
        rw [hw] at this; cases this; exact h
      · have : conv k ((heap a).map (Option.map wrapMlt)) = .error x := hx
        rw [hw] at this; cases this
      · cases h
  obtain ⟨s2, e2, h2, hw2, hh2, he2, hk2, hf2⟩ := C180_call recs conv s1 hw1 b (some [(k : ℤ)]) true false _ rfl
  have hb1 : s1.base.heap b = heap b := by rw [hh1, Function.update_of_ne hab.symm]; rfl
  obtain ⟨B, v, -, hv, -, hm⟩ := hf2 (he2.2 ⟨hin, fun _ _ _ h => by cases h⟩) k hreq (.inr rfl)
  have hl2 : s2.lonAt k = some w := by
    rcases hk2 k with ⟨-, -, h⟩ | ⟨-, -, -, h⟩
    · rw [h, hl1]
    · rcases h with ⟨h, -⟩ | ⟨h, -⟩ | ⟨-, h⟩
      · cases h
      · cases h
      · rw [h, hl1]
  have hhb : s2.base.heap b = (heap b).map (Option.map wrapMlt) := by rw [hh2, Function.update_self, hb1]
  refine ⟨s2, w, ?_, hm, hhb, hl2, hw, ?_⟩
  · simp only [runLon, List.foldl_cons, List.foldl_nil, h1, h2]
  · intro hc
    rcases hc k with ⟨h, -⟩ | ⟨a', w', -, h3, h4, h5⟩
    · rw [hv] at h; cases h
    · rw [hm] at h3; cases h3
      rw [hl2] at h4; cases h4
      rw [hhb, ← hw] at h5
      exact hne h5.symm

/-- C180 is false after a first call without `set_lon`: a later call with `set_lon` (the default) skips the record, which
has latitudes but never gets longitudes unless they are replaced as well. -/
theorem C180_missing_refuted (recs : List Rec) (conv : LonConv) (heap : ℕ → List (Option ℝ)) (k : ℕ) (hk : k < recs.length)
    (a b : ℕ) : ∃ s e, getBoundaryLon recs conv (runLon recs conv (.fresh heap) [⟨a, some [(k : ℤ)], false, false⟩]) b
        (some [(k : ℤ)]) false true = (s, e) ∧
      e = none ∧ s.base.slotMlt k = some a ∧ s.lonAt k = none ∧ ¬ s.Consistent conv := by
  obtain ⟨s1, e1, h1, hw1, hh1, he1, hk1, hf1⟩ := C180_call recs conv (.fresh heap) (LonStore.fresh_wf heap _) a
    (some [(k : ℤ)]) false false _ rfl
  have hreq : Requested recs.length (some [(k : ℤ)]) k := ⟨hk, by rintro l ⟨⟩; simp⟩
  have hin : InRange recs.length (some [(k : ℤ)]) := by rintro l ⟨⟩ i hi; simp at hi; omega
  obtain ⟨B, v, -, hv, -, hm⟩ := hf1 (he1.2 ⟨hin, fun _ _ _ h => by cases h⟩) k hreq (.inl rfl)
  have hl1 : s1.lonAt k = none := by
    rcases hk1 k with ⟨-, -, h⟩ | ⟨-, -, -, h⟩
    · exact h
    · rcases h with ⟨h, -⟩ | ⟨h, -⟩ | ⟨-, h⟩
      · cases h
      · cases h
      · exact h
  obtain ⟨s2, e2, h2, hw2, hh2, he2, hk2, hf2⟩ := C180_call recs conv s1 hw1 b (some [(k : ℤ)]) false true _ rfl
  have hkeep : s2.base.slot k = some v ∧ s2.base.slotMlt k = some a ∧ s2.lonAt k = none := by
    rcases hk2 k with ⟨h, h', h''⟩ | ⟨-, h, -⟩
    · exact ⟨h.trans hv, h'.trans hm, h''.trans hl1⟩
    · rw [hv] at h; simp at h
  refine ⟨s2, e2, ?_, he2.2 ⟨hin, ?_⟩, hkeep.2.1, hkeep.2.2, ?_⟩
  · simp only [runLon, List.foldl_cons, List.foldl_nil, h1, h2]
  · intro k' hr hc
    have : k' = k := by
      have := hr.2 _ rfl
      have := hr.1
      simp at *
      omega
    subst this
    rw [hv] at hc; simp at hc
  · intro hc
    rcases hc k with ⟨h, -⟩ | ⟨a', w', -, -, h4, -⟩
    · rw [hkeep.1] at h; cases h
    · rw [hkeep.2.2] at h4; cases h4

/-- C180 is false when the conversion raises while replacing: the record already has its new latitudes and local times,
and keeps the longitudes of the old ones. -/
theorem C180_raise_refuted (recs : List Rec) (conv : LonConv) (s : LonStore) (hs : s.WF recs.length) (k : ℕ)
    (hk : k < recs.length) (b : ℕ) (x : PyErr) (hx : conv k ((s.base.heap b).map (Option.map wrapMlt)) = .error x) :
    ∃ s', (∃ y, getBoundaryLon recs conv s b (some [(k : ℤ)]) true true = (s', some y)) ∧ s'.base.slotMlt k = some b ∧
      s'.lonAt k = s.lonAt k ∧ ¬ s'.Consistent conv := by
  have hll : (s.base.lats.getD (List.replicate recs.length none)).length = recs.length := by
    cases h : s.base.lats with
    | none => simp
    | some l => simpa using hs.1.1 l h
  have hml : (s.base.mlts.getD (List.replicate recs.length none)).length = recs.length := by
    cases h : s.base.mlts with
    | none => simp
    | some l => simpa using hs.1.2 l h
  obtain ⟨v, hv⟩ := latsFor_total recs[k] ((s.base.heap b).map (Option.map wrapMlt))
  have hcalc : getBoundaryLon recs conv s b (some [(k : ℤ)]) true true =
      (⟨⟨Function.update s.base.heap b ((s.base.heap b).map (Option.map wrapMlt)),
        some ((s.base.lats.getD (List.replicate recs.length none)).set k (some v)),
        some ((s.base.mlts.getD (List.replicate recs.length none)).set k (some b))⟩,
        some (s.lons.getD (List.replicate recs.length none))⟩, some x) := by
    have hp : pyPos recs.length (k : ℤ) = some k := pyPos_some.2 ⟨hk, .inl rfl⟩
    simp only [getBoundaryLon, Option.getD_some, lonLoop, hll, hp, List.getElem?_eq_getElem hk, hv, hx, if_true, or_true]
  have hm' : (⟨Function.update s.base.heap b ((s.base.heap b).map (Option.map wrapMlt)),
        some ((s.base.lats.getD (List.replicate recs.length none)).set k (some v)),
        some ((s.base.mlts.getD (List.replicate recs.length none)).set k (some b))⟩ : Store).slotMlt k = some b := by
    simp [Store.slotMlt, hml, hk]
  refine ⟨_, ⟨x, hcalc⟩, hm', getD_replicate_slot s.lons recs.length k, ?_⟩
  intro hc
  rcases hc k with ⟨h, -⟩ | ⟨a', w', -, h3, -, h5⟩
  · simp [Store.slot, hll, hk] at h
  · rw [hm'] at h3; cases h3
    simp only [Function.update_self] at h5
    rw [hx] at h5; cases h5

/-- Not empty: a conversion that always works, does not distinguish local times a day apart and distinguishes six from
twelve hours; a fresh object has consistent slots. -/
example : ∃ conv : LonConv, (∀ k m, ∃ w, conv k m = .ok w) ∧ (∀ k m, conv k (m.map (Option.map wrapMlt)) = conv k m) ∧
    conv 0 [some 6] ≠ conv 0 [some 12] ∧ (LonStore.fresh fun _ => []).Consistent conv := by
  refine ⟨fun _ m => .ok (m.map (Option.map fun h => 360 * Int.fract (h / 24))), fun _ _ => ⟨_, rfl⟩, ?_, ?_,
    fun _ => .inl ⟨rfl, rfl⟩⟩
  · intro k m
    simp only [List.map_map, Except.ok.injEq]
    refine List.map_congr_left fun x _ => ?_
    cases x with
    | none => rfl
    | some h =>
      simp only [Function.comp_apply, Option.map_some, Option.some.injEq, mul_eq_mul_left_iff]
      left
      rcases wrapMlt_cases h with e | e | e <;> rw [e]
      · rw [show (h + 24) / 24 = h / 24 + 1 by ring, Int.fract_add_one]
      · rw [show (h - 24) / 24 = h / 24 - 1 by ring, Int.fract_sub_one]
  · simp only [List.map_cons, List.map_nil, Option.map_some, ne_eq, Except.ok.injEq, List.cons.injEq, Option.some.injEq,
      and_true]
    rw [Int.fract_eq_self.2 ⟨by norm_num, by norm_num⟩, Int.fract_eq_self.2 ⟨by norm_num, by norm_num⟩]
    norm_num

end Ocb.Coord
