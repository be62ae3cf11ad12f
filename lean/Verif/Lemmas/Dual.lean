import Verif.Model.Dual
import Verif.Props.Load

/-! # Lemmas about the coordinate methods of `DualBoundary` -/

set_option autoImplicit false

namespace Ocb.Coord

open Real

/-- Boundary latitude in closed form. -/
noncomputable def bLat (B : Rec) (mlt : ℝ) : Option ℝ :=
  if (B.r + B.rf mlt) ^ 2 - (B.rCent * Real.sin (hourAngle mlt - B.phiCent * π / 180)) ^ 2 < 0 then none
      else if B.rCent * Real.cos (hourAngle mlt - B.phiCent * π / 180) + √((B.r + B.rf mlt) ^ 2
          - (B.rCent * Real.sin (hourAngle mlt - B.phiCent * π / 180)) ^ 2) < 0 then none
      else some (B.hem * (90 - (B.rCent * Real.cos (hourAngle mlt - B.phiCent * π / 180) + √((B.r + B.rf mlt) ^ 2
          - (B.rCent * Real.sin (hourAngle mlt - B.phiCent * π / 180)) ^ 2))))

theorem boundaryLat_bLat (B : Rec) (mlt : ℝ) : boundaryLat B mlt = .ok (bLat B mlt) := boundaryLat_ok B mlt

theorem latsFor_bLat (B : Rec) (m v : List (Option ℝ)) : LatsFor B m v ↔ v = m.map (·.bind (bLat B)) := by
  rw [← latsFor_iff]
  have h : mapE (boundaryEntry B) m = .ok (m.map (·.bind (bLat B))) := by
    apply mapE_map
    intro a _
    cases a with
    | none => rfl
    | some a => exact boundaryLat_bLat B a
  rw [h]
  simp [eq_comm]

/-- One period of the correction is a day. -/
def Rec.Daily (B : Rec) : Prop := ∀ h, B.rf (h + 24) = B.rf h

/-- Slots of the two lists are filled together. -/
def Store.Paired (s : Store) : Prop :=
  (s.lats.isSome ↔ s.mlts.isSome) ∧ ∀ k, s.slot k = none ↔ s.slotMlt k = none

/-- The member stores of a dual store. -/
def DStore.ocb (s : DStore) : Store := ⟨s.heap, s.ocbLats, s.ocbMlts⟩
def DStore.eab (s : DStore) : Store := ⟨s.heap, s.eabLats, s.eabMlts⟩

/-- A call for one existing record with `overwrite`. -/
theorem get_one (recs : List Rec) (s : Store) (hs : s.WF recs.length) (hp : s.Paired) (ref : ℕ) (i : ℤ) (B : Rec)
    (hi : 0 ≤ i) (hB : recs[i.toNat]? = some B) (hd : B.Daily) :
    ∃ s', getBoundaryLat recs s ref (some [i]) true = (s', none) ∧ s'.WF recs.length ∧ s'.Paired ∧
      s'.lats.isSome ∧ s'.heap = Function.update s.heap ref ((s.heap ref).map (Option.map wrapMlt)) ∧
      (∀ k, k ≠ i.toNat → s'.slot k = s.slot k ∧ s'.slotMlt k = s.slotMlt k) ∧
      s'.slot i.toNat = some ((s.heap ref).map (·.bind (bLat B))) ∧ s'.slotMlt i.toNat = some ref := by
  obtain ⟨s', e, h1, h2, ⟨l, hl, -⟩, h4, h5, h6, h7⟩ := C30_call recs s hs ref (some [i]) true
  have hlt : i.toNat < recs.length := (List.getElem?_eq_some_iff.1 hB).1
  have he : e = none := by
    rw [h4]
    rintro l ⟨⟩ j hj
    obtain rfl : j = i := by simpa using hj
    omega
  subst he
  have hreq : ∀ k, Requested recs.length (some [i]) k ↔ k = i.toNat := by
    intro k
    simp only [Requested, Option.some.injEq, forall_eq', List.mem_singleton]
    omega
  have hm : s'.mlts.isSome := by
    have : (getBoundaryLat recs s ref (some [i]) true).1.mlts.isSome := rfl
    rwa [h1] at this
  obtain ⟨B', v, hB', hv, hL, hM⟩ := h6 rfl i.toNat ((hreq _).2 rfl) (.inr rfl)
  rw [hB] at hB'
  obtain rfl : B = B' := by simpa using hB'
  rw [latsFor_wrap B hd, latsFor_bLat] at hL
  subst hL
  have hne : ∀ k, k ≠ i.toNat → s'.slot k = s.slot k ∧ s'.slotMlt k = s.slotMlt k := by
    intro k hk
    rcases h5 k with h | ⟨hr, -⟩
    · exact h
    · exact absurd ((hreq k).1 hr) hk
  refine ⟨s', h1, h2, ⟨by simp [hl, hm], ?_⟩, by simp [hl], h7, hne, hv, hM⟩
  intro k
  by_cases hk : k = i.toNat
  · subst hk; simp [hv, hM]
  · rw [(hne k hk).1, (hne k hk).2]; exact hp.2 k

/-- The pair under the cursor, with the member cursors in step. -/
structure Sel (D : DualObj) (O E : Rec) : Prop where
  pos : 0 ≤ D.recInd
  lt : D.recInd < D.records
  oInd : D.ocbInd[D.recInd.toNat]? = some D.ocbRecInd
  eInd : D.eabInd[D.recInd.toNat]? = some D.eabRecInd
  oPos : 0 ≤ D.ocbRecInd
  ePos : 0 ≤ D.eabRecInd
  oRec : D.ocbRecs[D.ocbRecInd.toNat]? = some O
  eRec : D.eabRecs[D.eabRecInd.toNat]? = some E

/-- The stores of both members have one slot per record, filled in pairs. -/
structure DStore.WF (D : DualObj) (s : DStore) : Prop where
  oWF : s.ocb.WF D.ocbRecs.length
  eWF : s.eab.WF D.eabRecs.length
  oPaired : s.ocb.Paired
  ePaired : s.eab.Paired

theorem pyIdx_pos {α : Type*} {l : List α} {i : ℤ} {a : α} (h0 : 0 ≤ i) (h : l[i.toNat]? = some a) :
    pyIdx l i = .ok a := by
  simp [pyIdx, pyGet, h0, h]

theorem wrap_heap (B : Rec) (hd : B.Daily) (m : List (Option ℝ)) :
    (m.map (Option.map wrapMlt)).map (·.bind (bLat B)) = m.map (·.bind (bLat B)) := by
  rw [List.map_map]
  apply List.map_congr_left
  intro a _
  cases a with
  | none => rfl
  | some a =>
    have := boundaryLat_wrap B hd a
    rw [boundaryLat_bLat, boundaryLat_bLat] at this
    simpa using this

/-- Twice the in-place wrapping: once for each member. -/
noncomputable def wrap2 (m : List (Option ℝ)) : List (Option ℝ) :=
  (m.map (Option.map wrapMlt)).map (Option.map wrapMlt)

theorem getBoundaryLats_out {D : DualObj} {O E : Rec} (hD : Sel D O E) (hO : O.Daily) (hE : E.Daily) (s : DStore)
    (hs : s.WF D) (ref : ℕ) :
    ∃ s', getBoundaryLats D s ref = .ok s' ∧ s'.WF D ∧ s'.ocbLats.isSome ∧ s'.eabLats.isSome ∧
      s'.heap = Function.update s.heap ref (wrap2 (s.heap ref)) ∧
      (∀ k, k ≠ D.ocbRecInd.toNat → s'.ocb.slot k = s.ocb.slot k ∧ s'.ocb.slotMlt k = s.ocb.slotMlt k) ∧
      (∀ k, k ≠ D.eabRecInd.toNat → s'.eab.slot k = s.eab.slot k ∧ s'.eab.slotMlt k = s.eab.slotMlt k) ∧
      s'.ocb.slot D.ocbRecInd.toNat = some ((s.heap ref).map (·.bind (bLat O))) ∧
      s'.ocb.slotMlt D.ocbRecInd.toNat = some ref ∧
      s'.eab.slot D.eabRecInd.toNat = some ((s.heap ref).map (·.bind (bLat E))) ∧
      s'.eab.slotMlt D.eabRecInd.toNat = some ref := by
  obtain ⟨s1, a1, a2, a3, a4, a5, a6, a7, a8⟩ := get_one D.eabRecs s.eab hs.eWF hs.ePaired ref D.eabRecInd E hD.ePos
    hD.eRec hE
  obtain ⟨s2, b1, b2, b3, b4, b5, b6, b7, b8⟩ := get_one D.ocbRecs ⟨s1.heap, s.ocbLats, s.ocbMlts⟩ hs.oWF
    hs.oPaired ref D.ocbRecInd O hD.oPos hD.oRec hO
  have hheap : s1.heap ref = (s.heap ref).map (Option.map wrapMlt) := by
    rw [a5, Function.update_self]; rfl
  refine ⟨⟨s2.heap, s2.lats, s2.mlts, s1.lats, s1.mlts⟩, ?_, ⟨b2, a2, b3, a3⟩, b4, a4, ?_, b6, a6, ?_, b8, a7, a8⟩
  · unfold getBoundaryLats
    rw [pyIdx_pos hD.pos hD.eInd, pyIdx_pos hD.pos hD.oInd]
    simp only [bind, Except.bind]
    have : (⟨s.heap, s.eabLats, s.eabMlts⟩ : Store) = s.eab := rfl
    rw [this, a1]
    simp only [b1]
  · show s2.heap = _
    rw [b5]
    show Function.update s1.heap ref ((s1.heap ref).map (Option.map wrapMlt)) = _
    rw [hheap, a5]
    simp [wrap2, DStore.eab]
  · show s2.slot _ = _
    rw [b7]
    show some ((s1.heap ref).map (·.bind (bLat O))) = _
    rw [hheap, wrap_heap O hO]

theorem slot_idx {s : Store} {l : List (Option (List (Option ℝ)))} {i : ℤ} (hl : s.lats = some l) (h0 : 0 ≤ i)
    (hlt : i.toNat < l.length) : pyIdx l i = .ok (s.slot i.toNat) := by
  rw [Store.slot, hl]
  simp [pyIdx, pyGet, h0, hlt]

theorem slotMlt_idx {s : Store} {l : List (Option ℕ)} {i : ℤ} (hl : s.mlts = some l) (h0 : 0 ≤ i)
    (hlt : i.toNat < l.length) : pyIdx l i = .ok (s.slotMlt i.toNat) := by
  rw [Store.slotMlt, hl]
  simp [pyIdx, pyGet, h0, hlt]

theorem currentOf_out (s : Store) (n : ℕ) (hs : s.WF n) (hp : s.Paired) (i : ℤ) (h0 : 0 ≤ i) (hlt : i.toNat < n) :
    currentOf s.lats s.mlts i = .ok (s.slot i.toNat, s.slotMlt i.toNat) := by
  unfold currentOf
  cases hl : s.lats with
  | none => simp [Store.slot, Store.slotMlt, hl, pure, Except.pure, show s.mlts = none by
      have := hp.1; rw [hl] at this; simpa using this]
  | some l =>
    have hm : s.mlts.isSome := hp.1.1 (by simp [hl])
    obtain ⟨m, hm⟩ := Option.isSome_iff_exists.1 hm
    rw [hm]
    simp only []
    rw [slot_idx hl h0 (by rw [hs.1 l hl]; exact hlt), slotMlt_idx hm h0 (by rw [hs.2 m hm]; exact hlt)]
    rfl

theorem putSlot_out {α : Type} (l : List (Option α)) (n : ℕ) (hl : l.length = n) (i : ℤ) (h0 : 0 ≤ i) (hlt : i.toNat < n)
    (v : Option α) : putSlot (some l) i v = .ok (some (l.set i.toNat v)) := by
  unfold putSlot
  have : pyPos l.length i = some i.toNat := by rw [pyPos_some]; omega
  simp only [this]

/-- The shared block, for a selected pair: it returns the boundary latitudes, and afterwards the stores hold what they
held before, except that at the two records under the cursors new locations are stored where nothing was, or where
`overwrite` was set. -/
theorem boundStep_out {D : DualObj} {O E : Rec} (hD : Sel D O E) (hO : O.Daily) (hE : E.Daily) (s : DStore)
    (hs : s.WF D) (ref : ℕ) (ow : Bool) :
    ∃ s', boundStep D s ref ow = .ok ((s.heap ref).map (·.bind (bLat O)), (s.heap ref).map (·.bind (bLat E)), s') ∧
      s'.WF D ∧ s'.heap = Function.update s.heap ref (wrap2 (s.heap ref)) ∧
      (∀ k, (s'.ocb.slot k = s.ocb.slot k ∧ s'.ocb.slotMlt k = s.ocb.slotMlt k) ∨
        (k = D.ocbRecInd.toNat ∧ (ow = true ∨ s.ocb.slot k = none) ∧
          s'.ocb.slot k = some ((s.heap ref).map (·.bind (bLat O))) ∧ s'.ocb.slotMlt k = some ref)) ∧
      (∀ k, (s'.eab.slot k = s.eab.slot k ∧ s'.eab.slotMlt k = s.eab.slotMlt k) ∨
        (k = D.eabRecInd.toNat ∧ (ow = true ∨ s.eab.slot k = none) ∧
          s'.eab.slot k = some ((s.heap ref).map (·.bind (bLat E))) ∧ s'.eab.slotMlt k = some ref)) := by
  have hoi : D.ocbRecInd.toNat < D.ocbRecs.length := (List.getElem?_eq_some_iff.1 hD.oRec).1
  have hei : D.eabRecInd.toNat < D.eabRecs.length := (List.getElem?_eq_some_iff.1 hD.eRec).1
  obtain ⟨s1, a1, a2, a3, a4, a5, a6, a7, a8, a9, a10, a11⟩ := getBoundaryLats_out hD hO hE s hs ref
  have c1 := currentOf_out s.ocb _ hs.oWF hs.oPaired D.ocbRecInd hD.oPos hoi
  have c2 := currentOf_out s.eab _ hs.eWF hs.ePaired D.eabRecInd hD.ePos hei
  have c3 := currentOf_out s1.ocb _ a2.oWF a2.oPaired D.ocbRecInd hD.oPos hoi
  have c4 := currentOf_out s1.eab _ a2.eWF a2.ePaired D.eabRecInd hD.ePos hei
  rw [a8, a9] at c3
  rw [a10, a11] at c4
  change currentOf s.ocbLats s.ocbMlts _ = _ at c1
  change currentOf s.eabLats s.eabMlts _ = _ at c2
  change currentOf s1.ocbLats s1.ocbMlts _ = _ at c3
  change currentOf s1.eabLats s1.eabMlts _ = _ at c4
  have new : ∀ ow', (ow' = true ∨ (s.ocb.slot D.ocbRecInd.toNat = none ∧ s.eab.slot D.eabRecInd.toNat = none)) →
      (∀ k, (s1.ocb.slot k = s.ocb.slot k ∧ s1.ocb.slotMlt k = s.ocb.slotMlt k) ∨
        (k = D.ocbRecInd.toNat ∧ (ow' = true ∨ s.ocb.slot k = none) ∧
          s1.ocb.slot k = some ((s.heap ref).map (·.bind (bLat O))) ∧ s1.ocb.slotMlt k = some ref)) ∧
      (∀ k, (s1.eab.slot k = s.eab.slot k ∧ s1.eab.slotMlt k = s.eab.slotMlt k) ∨
        (k = D.eabRecInd.toNat ∧ (ow' = true ∨ s.eab.slot k = none) ∧
          s1.eab.slot k = some ((s.heap ref).map (·.bind (bLat E))) ∧ s1.eab.slotMlt k = some ref)) := by
    intro ow' hw
    constructor
    · intro k
      by_cases hk : k = D.ocbRecInd.toNat
      · subst hk; exact .inr ⟨rfl, hw.imp id (·.1), a8, a9⟩
      · exact .inl (a6 k hk)
    · intro k
      by_cases hk : k = D.eabRecInd.toNat
      · subst hk; exact .inr ⟨rfl, hw.imp id (·.2), a10, a11⟩
      · exact .inl (a7 k hk)
  cases ow with
  | true =>
    refine ⟨s1, ?_, a2, a5, new true (.inl rfl)⟩
    unfold boundStep
    simp only [bind, Except.bind, pure, Except.pure, if_true, a1, c3, c4, Bool.true_or]
  | false =>
    by_cases hnone : s.ocb.slot D.ocbRecInd.toNat = none ∧ s.eab.slot D.eabRecInd.toNat = none
    · refine ⟨s1, ?_, a2, a5, new false (.inr hnone)⟩
      have h1 := (hs.oPaired.2 D.ocbRecInd.toNat).1 hnone.1
      have h2 := (hs.ePaired.2 D.eabRecInd.toNat).1 hnone.2
      unfold boundStep
      simp [bind, Except.bind, pure, Except.pure, a1, c1, c2, c3, c4, hnone.1, hnone.2, h1, h2]
    · -- something is put back
      obtain ⟨lO, hlO⟩ := Option.isSome_iff_exists.1 a3
      obtain ⟨lE, hlE⟩ := Option.isSome_iff_exists.1 a4
      obtain ⟨mO, hmO⟩ := Option.isSome_iff_exists.1 (a2.oPaired.1.1 a3)
      obtain ⟨mE, hmE⟩ := Option.isSome_iff_exists.1 (a2.ePaired.1.1 a4)
      change s1.ocbMlts = some mO at hmO
      change s1.eabMlts = some mE at hmE
      rw [hlO, hmO] at c3
      rw [hlE, hmE] at c4
      have lenO := a2.oWF.1 lO hlO
      have lenE := a2.eWF.1 lE hlE
      have lenMO := a2.oWF.2 mO hmO
      have lenME := a2.eWF.2 mE hmE
      -- the general effect of putting a slot back
      have put : ∀ (st st1 : Store) (n : ℕ) (i : ℕ) (l : List (Option (List (Option ℝ)))) (m : List (Option ℕ)) (h : ℕ → List (Option ℝ)),
          st1.lats = some l → st1.mlts = some m → l.length = n → m.length = n → i < n → st.Paired → st1.Paired →
          (∀ k, k ≠ i → st1.slot k = st.slot k ∧ st1.slotMlt k = st.slotMlt k) →
          let st2 : Store := ⟨h, some (l.set i (st.slot i)), some (m.set i (st.slotMlt i))⟩
          st2.WF n ∧ st2.Paired ∧ ∀ k, st2.slot k = st.slot k ∧ st2.slotMlt k = st.slotMlt k := by
        intro st st1 n i l m h hl hm hln hmn hi hp hp1 hk
        have key : ∀ k, (⟨h, some (l.set i (st.slot i)), some (m.set i (st.slotMlt i))⟩ : Store).slot k = st.slot k ∧
            (⟨h, some (l.set i (st.slot i)), some (m.set i (st.slotMlt i))⟩ : Store).slotMlt k = st.slotMlt k := by
          intro k
          by_cases hki : k = i
          · subst hki
            simp [Store.slot, Store.slotMlt, hln, hmn, hi]
          · have := hk k hki
            rw [← this.1, ← this.2]
            simp only [Store.slot, Store.slotMlt, hl, hm, Option.bind_some, List.getElem?_set_ne (Ne.symm hki)]
            exact ⟨trivial, trivial⟩
        refine ⟨⟨by rintro l' ⟨⟩; simpa using hln, by rintro l' ⟨⟩; simpa using hmn⟩, ⟨by simp, ?_⟩, key⟩
        intro k
        rw [(key k).1, (key k).2]; exact hp.2 k
      have putO := put s.ocb s1.ocb _ D.ocbRecInd.toNat lO mO s1.heap hlO hmO lenO lenMO hoi hs.oPaired a2.oPaired a6
      have putE := put s.eab s1.eab _ D.eabRecInd.toNat lE mE s1.heap hlE hmE lenE lenME hei hs.ePaired a2.ePaired a7
      simp only [] at putO putE
      have pO1 := putSlot_out lO _ lenO D.ocbRecInd hD.oPos hoi (s.ocb.slot D.ocbRecInd.toNat)
      have pO2 := putSlot_out mO _ lenMO D.ocbRecInd hD.oPos hoi (s.ocb.slotMlt D.ocbRecInd.toNat)
      have pE1 := putSlot_out lE _ lenE D.eabRecInd hD.ePos hei (s.eab.slot D.eabRecInd.toNat)
      have pE2 := putSlot_out mE _ lenME D.eabRecInd hD.ePos hei (s.eab.slotMlt D.eabRecInd.toNat)
      cases hso : s.ocb.slot D.ocbRecInd.toNat with
      | none =>
        cases hse : s.eab.slot D.eabRecInd.toNat with
        | none => exact absurd ⟨hso, hse⟩ hnone
        | some ve =>
          obtain ⟨re, hre⟩ : ∃ re, s.eab.slotMlt D.eabRecInd.toNat = some re := by
            rw [← Option.ne_none_iff_exists']
            intro h; have := (hs.ePaired.2 _).2 h; rw [hse] at this; cases this
          rw [hse] at pE1 putE
          rw [hre] at pE2 putE
          have h1 := (hs.oPaired.2 D.ocbRecInd.toNat).1 hso
          refine ⟨{ s1 with eabLats := some (lE.set D.eabRecInd.toNat (some ve)), eabMlts := some (mE.set D.eabRecInd.toNat (some re)) }, ?_, ⟨a2.oWF, putE.1, a2.oPaired, putE.2.1⟩, a5, ?_, fun k => .inl (putE.2.2 k)⟩
          · unfold boundStep
            simp [bind, Except.bind, pure, Except.pure, a1, c1, c2, c3, c4, hso, hse, h1, hre, hlO, hmO, hlE, hmE, pE1, pE2]
          · intro k
            by_cases hk : k = D.ocbRecInd.toNat
            · subst hk; exact .inr ⟨rfl, .inr hso, a8, a9⟩
            · exact .inl (a6 k hk)
      | some vo =>
        obtain ⟨ro, hro⟩ : ∃ ro, s.ocb.slotMlt D.ocbRecInd.toNat = some ro := by
          rw [← Option.ne_none_iff_exists']
          intro h; have := (hs.oPaired.2 _).2 h; rw [hso] at this; cases this
        rw [hso] at pO1 putO
        rw [hro] at pO2 putO
        cases hse : s.eab.slot D.eabRecInd.toNat with
        | none =>
          have h1 := (hs.ePaired.2 D.eabRecInd.toNat).1 hse
          refine ⟨{ s1 with ocbLats := some (lO.set D.ocbRecInd.toNat (some vo)), ocbMlts := some (mO.set D.ocbRecInd.toNat (some ro)) }, ?_, ⟨putO.1, a2.eWF, putO.2.1, a2.ePaired⟩, a5, fun k => .inl (putO.2.2 k), ?_⟩
          · unfold boundStep
            simp [bind, Except.bind, pure, Except.pure, a1, c1, c2, c3, c4, hso, hse, h1, hro, hlO, hmO, hlE, hmE, pO1, pO2]
          · intro k
            by_cases hk : k = D.eabRecInd.toNat
            · subst hk; exact .inr ⟨rfl, .inr hse, a10, a11⟩
            · exact .inl (a7 k hk)
        | some ve =>
          obtain ⟨re, hre⟩ : ∃ re, s.eab.slotMlt D.eabRecInd.toNat = some re := by
            rw [← Option.ne_none_iff_exists']
            intro h; have := (hs.ePaired.2 _).2 h; rw [hse] at this; cases this
          rw [hse] at pE1 putE
          rw [hre] at pE2 putE
          refine ⟨{ s1 with ocbLats := some (lO.set D.ocbRecInd.toNat (some vo)), ocbMlts := some (mO.set D.ocbRecInd.toNat (some ro)), eabLats := some (lE.set D.eabRecInd.toNat (some ve)), eabMlts := some (mE.set D.eabRecInd.toNat (some re)) }, ?_, ⟨putO.1, putE.1, putO.2.1, putE.2.1⟩, a5, fun k => .inl (putO.2.2 k), fun k => .inl (putE.2.2 k)⟩
          unfold boundStep
          simp [bind, Except.bind, pure, Except.pure, a1, c1, c2, c3, c4, hso, hse, hro, hre, hlO, hmO, hlE, hmE, pO1, pO2, pE1, pE2]

end Ocb.Coord
