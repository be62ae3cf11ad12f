import Verif.Props.Geo

/-!
# C167: geographic coordinates of a `DualBoundary`
-/

set_option autoImplicit false

namespace Ocb.Geo

open Ocb.Time Ocb.Coord Ocb.Scale Ocb.Files

/-! ### index arrays -/

theorem mem_whereIdx (mask : List Bool) (i : ℕ) : i ∈ whereIdx mask ↔ mask[i]? = some true := by
  unfold whereIdx
  rw [List.mem_filter, List.mem_range]
  constructor
  · rintro ⟨h1, h2⟩
    rw [List.getElem?_eq_getElem h1] at h2 ⊢
    simpa using h2
  · intro h
    exact ⟨(List.getElem?_eq_some_iff.1 h).1, by rw [h]; rfl⟩

theorem whereIdx_cons (b : Bool) (mask : List Bool) :
    whereIdx (b :: mask) = (if b then [0] else []) ++ (whereIdx mask).map (· + 1) := by
  unfold whereIdx
  rw [List.length_cons, List.range_succ_eq_map, List.filter_cons]
  simp only [List.getElem?_cons_zero, Option.getD_some]
  rw [List.filter_map]
  have : ((fun i => (b :: mask)[i]?.getD false) ∘ Nat.succ) = fun i => mask[i]?.getD false := by
    funext i; simp
  rw [this]
  cases b <;> simp

theorem whereIdx_length {α : Type} (f : α → Bool) (l : List α) : (whereIdx (l.map f)).length = l.countP f := by
  induction l with
  | nil => rfl
  | cons a l ih =>
    rw [List.map_cons, whereIdx_cons, List.length_append, List.length_map, ih, List.countP_cons]
    cases f a <;> simp [add_comm]

theorem scatter_get {α : Type} (g : ℕ → α) (idx : List ℕ) (l : List α) (j : ℕ) :
    (scatter l idx (idx.map g))[j]? = if j ∈ idx ∧ j < l.length then some (g j) else l[j]? := by
  induction idx generalizing l with
  | nil => simp [scatter]
  | cons i idx ih =>
    have e : scatter l (i :: idx) ((i :: idx).map g) = scatter (l.set i (g i)) idx (idx.map g) := rfl
    rw [e, ih, List.length_set]
    by_cases hj : j < l.length
    · by_cases h1 : j ∈ idx
      · rw [if_pos ⟨h1, hj⟩, if_pos ⟨List.mem_cons_of_mem _ h1, hj⟩]
      · rw [if_neg fun h => h1 h.1]
        by_cases h2 : i = j
        · subst h2
          rw [if_pos ⟨List.mem_cons_self, hj⟩, List.getElem?_set_self hj]
        · rw [List.getElem?_set_ne h2, if_neg]
          rintro ⟨h, -⟩
          rcases List.mem_cons.1 h with h | h
          · exact h2 h.symm
          · exact h1 h
    · rw [if_neg fun h => hj h.2, if_neg fun h => hj h.2]
      rw [List.getElem?_eq_none (by simpa using hj), List.getElem?_eq_none (by simpa using hj)]

/-- Writing a value to every index, in any order. -/
theorem scatter_all {α β : Type} (g : α → β) (d : α) (out : List α) (res : List β) (hr : res.length = out.length)
    (idx : List ℕ) (h : ∀ i < out.length, i ∈ idx) :
    scatter res idx (idx.map fun i => g (out[i]?.getD d)) = out.map g := by
  apply List.ext_getElem?
  intro j
  rw [scatter_get (fun i => g (out[i]?.getD d))]
  by_cases hj : j < out.length
  · rw [if_pos ⟨h j hj, by omega⟩, List.getElem?_map, List.getElem?_eq_getElem hj]
    rfl
  · rw [if_neg fun h => hj (by omega), List.getElem?_eq_none (by omega), List.getElem?_eq_none (by simp; omega)]

/-! ### the parts of the call -/

/-- The mask of lines 1635-1636. -/
noncomputable def midMask (D : DualObj) (p : F × F × F) : Bool := absLt p.1 (some D.ocbLat) && absGe p.1 (some D.eabLat)

/-- The mask of line 1637. -/
noncomputable def outMask (D : DualObj) (p : F × F × F) : Bool := absLt p.1 (some D.eabLat)

/-- The indices of line 1667. -/
noncomputable def imagOf (D : DualObj) (pts : List (F × F × F)) : List ℕ :=
  whereIdx (pts.map (midMask D)) ++ whereIdx (pts.map (outMask D))

/-- The entry lies equatorward of the OCB. -/
def Outside (D : DualObj) (p : F × F × F) : Prop := ∃ b, p.1 = some b ∧ |b| < |D.ocbLat|

/-- The entry lies poleward of the OCB or on it. -/
def Poleward (D : DualObj) (p : F × F × F) : Prop := ∃ b, p.1 = some b ∧ |D.ocbLat| ≤ |b|

theorem mask_iff (D : DualObj) (ho : |D.eabLat| < |D.ocbLat|) (p : F × F × F) :
    (midMask D p = true ∨ outMask D p = true) ↔ Outside D p := by
  obtain ⟨p, q⟩ := p
  unfold midMask outMask Outside
  cases p with
  | none => simp [absLt]
  | some b =>
    simp only [absLt, absGe, Bool.and_eq_true, decide_eq_true_eq, Option.some.injEq, exists_eq_left']
    constructor
    · rintro (⟨h, -⟩ | h)
      · exact h
      · linarith
    · intro h
      rcases le_or_gt |D.eabLat| |b| with h' | h'
      · exact .inl ⟨h, h'⟩
      · exact .inr h'

theorem mask_disj (D : DualObj) (p : F × F × F) : ¬ (midMask D p = true ∧ outMask D p = true) := by
  obtain ⟨p, q⟩ := p
  unfold midMask outMask
  cases p with
  | none => simp [absLt]
  | some b =>
    simp only [absLt, absGe, Bool.and_eq_true, decide_eq_true_eq]
    rintro ⟨⟨-, h⟩, h'⟩
    linarith

theorem imag_length (D : DualObj) (pts : List (F × F × F)) :
    (imagOf D pts).length = pts.countP fun p => midMask D p || outMask D p := by
  unfold imagOf
  rw [List.length_append, whereIdx_length, whereIdx_length]
  induction pts with
  | nil => rfl
  | cons p ps ih =>
    simp only [List.countP_cons]
    have := mask_disj D p
    cases h1 : midMask D p <;> cases h2 : outMask D p <;> simp_all <;> omega

theorem mem_imag (D : DualObj) (ho : |D.eabLat| < |D.ocbLat|) (pts : List (F × F × F)) (i : ℕ) :
    i ∈ imagOf D pts ↔ ∃ p, pts[i]? = some p ∧ Outside D p := by
  unfold imagOf
  rw [List.mem_append, mem_whereIdx, mem_whereIdx, List.getElem?_map, List.getElem?_map]
  cases h : pts[i]? with
  | none => simp
  | some p => simp [← mask_iff D ho]

theorem geoArr_cases (A : Aacgm) (geoc : Bool) (t : Tod) (lats mlts hs : List F) :
    (lats.length = hs.length ∧ ∃ vals, geoArr A geoc t lats mlts hs = .ok vals ∧
      List.Forall₂ (fun (m : (F × F) × F) g => GeoOf A geoc t m.1 m.2 g) ((lats.zip mlts).zip hs) vals) ∨
    (lats.length ≠ hs.length ∧ geoArr A geoc t lats mlts hs = .error .valueError) := by
  unfold geoArr
  by_cases h : lats.length = hs.length
  · rw [if_pos h]
    exact .inl ⟨h, mapE_rel _ _ (fun p : (F × F) × F => toGeo_out A geoc t p.1 p.2) _⟩
  · rw [if_neg h]; exact .inr ⟨h, rfl⟩

theorem dualRevertGeo_geo (A : Aacgm) (D : DualObj) (t : Tod) (s : DStore) (coords : Name) (hc : ¬ NamesMag coords)
    (pts : List (F × F × F)) (hs : List F) (ref : ℕ) (ow : Bool) (cur : List (F × F)) (ob eb : List F) (s1 : DStore)
    (h1 : revertGeo A ((selRec D.ocbRecs D.ocbRecInd).map fun B => (B, t)) coords (pts.zip hs) = .ok cur)
    (h2 : boundStep D s ref ow = .ok (ob, eb, s1)) (h3 : ¬ (pts.all fun p => absGe p.1 (some D.ocbLat)) = true)
    (out : List (F × F)) (hout : out = ((pts.zip cur).zip ((s1.heap ref).zip (ob.zip eb))).map
      fun r => dualRevertEntry D r.1.1.1 r.1.2 r.2.1 r.2.2.1 r.2.2.2) :
    dualRevertGeo A D t s coords pts hs (some ref) ow = (do
      let vals ← geoArr A (decide (NamesGeocentric coords)) t (gather none (out.map (·.1)) (imagOf D pts))
        (gather none (s1.heap ref) (imagOf D pts)) hs
      pure (scatter out (imagOf D pts) vals, s1)) := by
  subst hout
  unfold dualRevertGeo
  simp only [h1, h2, bind, Except.bind, sysOf_geo coords hc]
  rw [if_neg h3]
  by_cases h : NamesGeocentric coords <;> simp only [h, if_true, if_false, decide_true, decide_false, reduceCtorEq] <;> rfl

/-- What an entry outside the OCB becomes does not depend on the OCB part, and it keeps the local time it was given. -/
theorem entry_outside {D : DualObj} {p : F × F × F} (h : Outside D p) (cur cur' : F × F) (m ob eb : F) :
    dualRevertEntry D p.1 cur m ob eb = dualRevertEntry D p.1 cur' m ob eb ∧ (dualRevertEntry D p.1 cur m ob eb).2 = m := by
  obtain ⟨b, hb, h⟩ := h
  unfold dualRevertEntry
  rw [hb]
  simp only
  by_cases h1 : |b| < |D.eabLat|
  · rw [if_pos h1, if_pos h1]; exact ⟨rfl, rfl⟩
  · rw [if_neg h1, if_neg h1, if_pos h, if_pos h]; exact ⟨rfl, rfl⟩

/-- The rows of the loop free form. -/
noncomputable def rowsOut (D : DualObj) (O E : Rec) (pts : List (F × F × F)) (cur : List (F × F)) (mlts : List F) : List (F × F) :=
  ((pts.zip cur).zip ((wrap2 mlts).zip ((mlts.map (·.bind (bLat O))).zip (mlts.map (·.bind (bLat E)))))).map
    fun r => dualRevertEntry D r.1.1.1 r.1.2 r.2.1 r.2.2.1 r.2.2.2

theorem rowsOut_length (D : DualObj) (O E : Rec) (pts : List (F × F × F)) (cur : List (F × F)) (mlts : List F)
    (h1 : cur.length = pts.length) (h2 : mlts.length = pts.length) : (rowsOut D O E pts cur mlts).length = pts.length := by
  simp [rowsOut, wrap2, h1, h2]

theorem rowsOut_get (D : DualObj) (O E : Rec) (pts : List (F × F × F)) (cur : List (F × F)) (mlts : List F)
    (h1 : cur.length = pts.length) (h2 : mlts.length = pts.length) (i : ℕ) (p : F × F × F) (hp : pts[i]? = some p) :
    ∃ c m, cur[i]? = some c ∧ mlts[i]? = some m ∧ (wrap2 mlts)[i]? = some ((m.map wrapMlt).map wrapMlt) ∧
      (rowsOut D O E pts cur mlts)[i]? =
        some (dualRevertEntry D p.1 c ((m.map wrapMlt).map wrapMlt) (m.bind (bLat O)) (m.bind (bLat E))) := by
  have hi : i < pts.length := (List.getElem?_eq_some_iff.1 hp).1
  have hc : cur[i]? = some cur[i] := List.getElem?_eq_getElem (by omega)
  have hm : mlts[i]? = some mlts[i] := List.getElem?_eq_getElem (by omega)
  have hw : (wrap2 mlts)[i]? = some ((mlts[i].map wrapMlt).map wrapMlt) := by
    simp only [wrap2, List.getElem?_map, hm, Option.map_some]
  refine ⟨_, _, hc, hm, hw, ?_⟩
  unfold rowsOut
  rw [List.getElem?_map]
  have : ((pts.zip cur).zip ((wrap2 mlts).zip ((mlts.map (·.bind (bLat O))).zip (mlts.map (·.bind (bLat E))))))[i]?
      = some ((p, cur[i]), ((mlts[i].map wrapMlt).map wrapMlt, mlts[i].bind (bLat O), mlts[i].bind (bLat E))) := by
    simp only [List.getElem?_zip_eq_some, List.getElem?_map, hp, hc, hm, hw, Option.map_some, and_self]
  rw [this]
  rfl

/-- Rows outside the OCB do not depend on the OCB part. -/
theorem rowsOut_outside (D : DualObj) (O E : Rec) (pts : List (F × F × F)) (cur cur' : List (F × F)) (mlts : List F)
    (h1 : cur.length = pts.length) (h1' : cur'.length = pts.length) (h2 : mlts.length = pts.length)
    (h : ∀ p ∈ pts, Outside D p) : rowsOut D O E pts cur mlts = rowsOut D O E pts cur' mlts := by
  apply List.ext_getElem?
  intro i
  cases hp : pts[i]? with
  | none =>
    have hi : pts.length ≤ i := List.getElem?_eq_none_iff.1 hp
    rw [List.getElem?_eq_none (by rw [rowsOut_length _ _ _ _ _ _ h1 h2]; exact hi),
      List.getElem?_eq_none (by rw [rowsOut_length _ _ _ _ _ _ h1' h2]; exact hi)]
  | some p =>
    obtain ⟨c, m, -, e2, -, e4⟩ := rowsOut_get D O E pts cur mlts h1 h2 i p hp
    obtain ⟨c', m', -, f2, -, f4⟩ := rowsOut_get D O E pts cur' mlts h1' h2 i p hp
    rw [e2] at f2
    cases f2
    rw [e4, f4, (entry_outside (h p (List.mem_of_getElem? hp)) c c' _ _ _).1]

theorem revertArr_length {O : Rec} (hO : O.Valid) (pts : List (F × F × F)) :
    ∃ cur, revertArr (some O) pts = .ok cur ∧ cur.length = pts.length := by
  obtain ⟨cur, h1, h2⟩ := revertArr_cur O hO pts
  exact ⟨cur, h1, h2.length_eq.symm⟩

theorem revertGeo_length {O : Rec} (hO : O.Valid) (A : Aacgm) (t : Tod) (coords : Name) (hc : ¬ NamesMag coords)
    (pts : List (F × F × F)) (hs : List F) (hh : hs.length = pts.length) :
    ∃ cur, revertGeo A (some (O, t)) coords (pts.zip hs) = .ok cur ∧ cur.length = pts.length := by
  obtain ⟨mags, geo, h1, h2, h3⟩ := C166_revert A O hO t coords hc (pts.zip hs)
  refine ⟨geo, h2, ?_⟩
  rcases h3 with ⟨-, h3⟩ | ⟨-, h3⟩
  · rw [h3, List.length_map, List.length_zip, hh, min_self]
  · obtain ⟨cur, c1, c2⟩ := revertArr_length hO ((pts.zip hs).map (·.1))
    rw [c1] at h1
    cases h1
    rw [← h3.length_eq]
    simp [c2, hh]

/-- The magnetic call, when not all entries are poleward. -/
theorem dualRevert_rows {D : DualObj} {O E : Rec} (hD : PairOk D O E) (s : DStore) (hs : s.WF D) (pts : List (F × F × F))
    (ref : ℕ) (ow : Bool) (h3 : ¬ (pts.all fun p => absGe p.1 (some D.ocbLat)) = true) :
    ∃ cur s', revertArr (some O) pts = .ok cur ∧ cur.length = pts.length ∧
      boundStep D s ref ow = .ok ((s.heap ref).map (·.bind (bLat O)), (s.heap ref).map (·.bind (bLat E)), s') ∧
      s'.heap ref = wrap2 (s.heap ref) ∧
      dualRevert D s pts (some ref) ow = .ok (rowsOut D O E pts cur (s.heap ref), s') := by
  obtain ⟨cur, c1, c2⟩ := revertArr_length hD.oValid pts
  obtain ⟨s', b1, -, b3, -, -⟩ := boundStep_out hD.sel hD.oDaily hD.eDaily s hs ref ow
  have hheap : s'.heap ref = wrap2 (s.heap ref) := by rw [b3, Function.update_self]
  refine ⟨cur, s', c1, c2, b1, hheap, ?_⟩
  unfold dualRevert
  rw [selRec_sel hD.sel, c1]
  simp only [bind, Except.bind, pure, Except.pure]
  rw [if_neg h3, b1]
  simp only [hheap]
  rfl

theorem not_all_poleward {D : DualObj} {pts : List (F × F × F)} (h : ∃ p ∈ pts, Outside D p) :
    ¬ (pts.all fun p => absGe p.1 (some D.ocbLat)) = true := by
  rw [List.all_eq_true]
  intro hall
  obtain ⟨p, hp, b, hb, hlt⟩ := h
  have := hall p hp
  rw [hb] at this
  simp only [absGe, decide_eq_true_eq] at this
  linarith

/-- The geographic call, when not all entries are poleward. -/
theorem dualRevertGeo_rows {D : DualObj} {O E : Rec} (hD : PairOk D O E) (A : Aacgm) (t : Tod) (s : DStore) (hs : s.WF D)
    (coords : Name) (hc : ¬ NamesMag coords) (pts : List (F × F × F)) (hts : List F) (ref : ℕ) (ow : Bool)
    (hh : hts.length = pts.length) (hm : (s.heap ref).length = pts.length) (h3 : ∃ p ∈ pts, Outside D p) :
    ∃ cur curM s', cur.length = pts.length ∧ curM.length = pts.length ∧
      dualRevert D s pts (some ref) ow = .ok (rowsOut D O E pts curM (s.heap ref), s') ∧
      dualRevertGeo A D t s coords pts hts (some ref) ow = (do
        let vals ← geoArr A (decide (NamesGeocentric coords)) t
          ((imagOf D pts).map fun i => ((rowsOut D O E pts cur (s.heap ref))[i]?.getD (none, none)).1)
          ((imagOf D pts).map fun i => ((rowsOut D O E pts cur (s.heap ref))[i]?.getD (none, none)).2) hts
        pure (scatter (rowsOut D O E pts cur (s.heap ref)) (imagOf D pts) vals, s')) := by
  have h3' := not_all_poleward h3
  obtain ⟨curM, s', -, c2, c3, c4, c5⟩ := dualRevert_rows hD s hs pts ref ow h3'
  obtain ⟨cur, d1, d2⟩ := revertGeo_length hD.oValid A t coords hc pts hts hh
  refine ⟨cur, curM, s', d2, c2, c5, ?_⟩
  rw [dualRevertGeo_geo A D t s coords hc pts hts ref ow cur _ _ s' (by rw [selRec_sel hD.sel]; exact d1) c3 h3'
    (rowsOut D O E pts cur (s.heap ref)) (by rw [c4]; rfl)]
  have e1 : gather none ((rowsOut D O E pts cur (s.heap ref)).map (·.1)) (imagOf D pts)
      = (imagOf D pts).map fun i => ((rowsOut D O E pts cur (s.heap ref))[i]?.getD (none, none)).1 := by
    unfold gather
    apply List.map_congr_left
    intro i _
    rw [List.getElem?_map]
    cases (rowsOut D O E pts cur (s.heap ref))[i]? <;> rfl
  have e2 : gather none (s'.heap ref) (imagOf D pts)
      = (imagOf D pts).map fun i => ((rowsOut D O E pts cur (s.heap ref))[i]?.getD (none, none)).2 := by
    unfold gather
    apply List.map_congr_left
    intro i hi
    obtain ⟨p, hp, hout⟩ := (mem_imag D hD.order pts i).1 hi
    obtain ⟨c, m, -, -, f3, f4⟩ := rowsOut_get D O E pts cur (s.heap ref) d2 hm i p hp
    rw [c4, f3, f4]
    exact ((entry_outside hout c c _ _ _).2).symm
  rw [e1, e2]

theorem imag_full {D : DualObj} (ho : |D.eabLat| < |D.ocbLat|) {pts : List (F × F × F)} (h : ∀ p ∈ pts, Outside D p) :
    (imagOf D pts).length = pts.length := by
  rw [imag_length, List.countP_eq_length]
  intro p hp
  rw [Bool.or_eq_true]
  exact (mask_iff D ho p).2 (h p hp)

/-! ### C167 -/

/-- C167: `normal_coord` of geographic locations gives the coordinates of the magnetic locations which the library finds
for them at the time of the pair. -/
theorem C167_normal {D : DualObj} {O E : Rec} (hD : PairOk D O E) (A : Aacgm) (t : Tod) (s : DStore) (hs : s.WF D)
    (fresh : ℕ) (coords : Name) (hc : ¬ NamesMag coords) (pts : List (F × F × F)) (ow : Bool) :
    ∃ qs out s', List.Forall₂ (MagOf A (decide (NamesGeocentric coords)) t) pts qs ∧
      dualNormal D s fresh qs ow = .ok (out, s') ∧ dualNormalGeo A D t s fresh coords pts ow = .ok (out, s') := by
  obtain ⟨qs, h1, h2⟩ := mapE_rel _ _ (toMag_out A (decide (NamesGeocentric coords)) t) pts
  obtain ⟨out, s', h3, -⟩ := dualNormal_out hD s hs fresh qs ow
  refine ⟨qs, out, s', h2, h3, ?_⟩
  unfold dualNormalGeo
  have := hD.sel.pos
  have := hD.sel.lt
  rw [if_neg (by rintro (h | h) <;> linarith)]
  simp only [sysOf_geo coords hc]
  by_cases h : NamesGeocentric coords <;> simp_all [bind, Except.bind]

/-- C167, partial: `revert_coord` to geographic coordinates gives the places which the library finds for the magnetic
locations when no location is poleward of the OCB and all heights are equal.  Missing from the claim: different heights
(see `C167_heights_refuted`) and calls with locations on both sides of the OCB (see `C167_mixed_refuted`). -/
theorem C167_outside_partial {D : DualObj} {O E : Rec} (hD : PairOk D O E) (A : Aacgm) (t : Tod) (s : DStore) (hs : s.WF D)
    (coords : Name) (hc : ¬ NamesMag coords) (pts : List (F × F × F)) (h : F) (ref : ℕ) (ow : Bool)
    (hm : (s.heap ref).length = pts.length) (hne : pts ≠ []) (hout : ∀ p ∈ pts, Outside D p) :
    ∃ mags geo s', dualRevert D s pts (some ref) ow = .ok (mags, s') ∧
      dualRevertGeo A D t s coords pts (pts.map fun _ => h) (some ref) ow = .ok (geo, s') ∧
      List.Forall₂ (fun m g => GeoOf A (decide (NamesGeocentric coords)) t m h g) mags geo := by
  obtain ⟨p0, hp0⟩ := List.exists_mem_of_ne_nil _ hne
  obtain ⟨cur, curM, s', c1, c2, c3, c4⟩ := dualRevertGeo_rows hD A t s hs coords hc pts (pts.map fun _ => h) ref ow
    (by simp) hm ⟨p0, hp0, hout p0 hp0⟩
  have hrows := rowsOut_outside D O E pts cur curM (s.heap ref) c1 c2 hm hout
  rw [hrows] at c4
  set out := rowsOut D O E pts curM (s.heap ref) with hdef
  have hlen : out.length = pts.length := rowsOut_length D O E pts curM (s.heap ref) c2 hm
  set geoc := decide (NamesGeocentric coords)
  have hg := toGeo_out A geoc t
  choose g g1 g2 using fun p => hg p h
  have hfull := imag_full hD.order hout
  refine ⟨out, out.map g, s', c3, ?_, ?_⟩
  · have hh : (pts.map fun _ => h) = (imagOf D pts).map fun _ => h := by
      rw [List.map_const', List.map_const', hfull]
    have ha : geoArr A geoc t ((imagOf D pts).map fun i => (out[i]?.getD (none, none)).1)
        ((imagOf D pts).map fun i => (out[i]?.getD (none, none)).2) (pts.map fun _ => h)
        = .ok ((imagOf D pts).map fun i => g (out[i]?.getD (none, none))) := by
      unfold geoArr
      rw [if_pos (by simp [hfull]), hh, List.zip_map', List.zip_map']
      rw [← mapE_comp]
      exact mapE_map fun i _ => g1 _
    rw [c4, ha]
    simp only [bind, Except.bind, pure, Except.pure]
    rw [scatter_all g (none, none) out out rfl]
    intro i hi
    rw [hlen] at hi
    exact (mem_imag D hD.order pts i).2 ⟨pts[i], List.getElem?_eq_getElem hi, hout _ (List.getElem_mem hi)⟩
  · rw [List.forall₂_map_right_iff, List.forall₂_same]
    exact fun p _ => g2 p

/-- C167, partial: the same when all locations are poleward of the OCB, each with its own height; no local times are
needed. -/
theorem C167_poleward_partial {D : DualObj} {O E : Rec} (hD : PairOk D O E) (A : Aacgm) (t : Tod) (s : DStore)
    (coords : Name) (hc : ¬ NamesMag coords) (pts : List (F × F × F)) (hs : List F) (hh : hs.length = pts.length)
    (amlt : Option ℕ) (ow : Bool) (hin : ∀ p ∈ pts, Poleward D p ∧ ∀ a, p.1 = some a → InHem D.hem a) :
    ∃ mags geo, dualRevert D s pts amlt ow = .ok (mags, s) ∧
      dualRevertGeo A D t s coords pts hs amlt ow = .ok (geo, s) ∧
      List.Forall₂ (fun m g => GeoOf A (decide (NamesGeocentric coords)) t m.1 m.2 g) (mags.zip hs) geo := by
  have hall : (pts.all fun p => absGe p.1 (some D.ocbLat)) = true := by
    rw [List.all_eq_true]
    intro p hp
    obtain ⟨⟨b, hb, h⟩, -⟩ := hin p hp
    rw [hb]
    simpa only [absGe, decide_eq_true_eq] using h
  obtain ⟨mags, geo, h1, h2, h3⟩ := C166_revert A O hD.oValid t coords hc (pts.zip hs)
  have e1 : (pts.zip hs).map (·.1) = pts := by rw [List.map_fst_zip]; omega
  have e2 : (pts.zip hs).map (·.2) = hs := by rw [List.map_snd_zip]; omega
  rw [e1] at h1
  refine ⟨mags, geo, ?_, ?_, ?_⟩
  · unfold dualRevert
    rw [selRec_sel hD.sel, h1]
    simp only [bind, Except.bind, pure, Except.pure]
    rw [if_pos hall]
  · unfold dualRevertGeo
    rw [selRec_sel hD.sel]
    simp only [Option.map_some, h2, bind, Except.bind, pure, Except.pure]
    rw [if_pos hall]
  · rcases h3 with ⟨h4, h5⟩ | ⟨-, h5⟩
    · cases pts with
      | nil =>
        cases hs with
        | nil => subst h5; simp
        | cons a l => simp at hh
      | cons p ps =>
        cases hs with
        | nil => simp at hh
        | cons a l =>
          obtain ⟨⟨b, hb, -⟩, hi⟩ := hin p List.mem_cons_self
          exact absurd (by rw [hD.oHem]; exact hi b hb) (h4 (p, a) List.mem_cons_self b hb)
    · rw [e2] at h5; exact h5

/-- C167, refuted: with locations on both sides of the OCB in one call, `revert_coord` to geographic coordinates raises
ValueError, whatever the heights; in magnetic coordinates the same call works. -/
theorem C167_mixed_refuted {D : DualObj} {O E : Rec} (hD : PairOk D O E) (A : Aacgm) (t : Tod) (s : DStore) (hs : s.WF D)
    (coords : Name) (hc : ¬ NamesMag coords) (pts : List (F × F × F)) (hts : List F) (hh : hts.length = pts.length)
    (ref : ℕ) (ow : Bool) (hm : (s.heap ref).length = pts.length)
    (hin : ∃ p ∈ pts, Poleward D p) (hout : ∃ p ∈ pts, Outside D p) :
    dualRevertGeo A D t s coords pts hts (some ref) ow = .error .valueError ∧
    ∃ mags s', dualRevert D s pts (some ref) ow = .ok (mags, s') ∧ mags.length = pts.length := by
  obtain ⟨cur, curM, s', c1, c2, c3, c4⟩ := dualRevertGeo_rows hD A t s hs coords hc pts hts ref ow hh hm hout
  refine ⟨?_, _, _, c3, rowsOut_length _ _ _ _ _ _ c2 hm⟩
  have hlt : (imagOf D pts).length ≠ pts.length := by
    rw [imag_length]
    intro h
    rw [List.countP_eq_length] at h
    obtain ⟨p, hp, b, hb, hle⟩ := hin
    obtain ⟨b', hb', hlt⟩ := (mask_iff D hD.order p).1 (by simpa using h p hp)
    rw [hb] at hb'
    cases hb'
    linarith
  have ha : ∀ l1 l2 : List F, l1.length = (imagOf D pts).length →
      geoArr A (decide (NamesGeocentric coords)) t l1 l2 hts = .error .valueError := by
    intro l1 l2 h
    unfold geoArr
    rw [if_neg (by omega)]
  rw [c4, ha _ _ (by simp)]
  rfl

/-- Two locations, the first equatorward of both boundaries and the second between them: each is taken to the place at
the height of the other. -/
theorem C167_heights_swapped {D : DualObj} {O E : Rec} (hD : PairOk D O E) (A : Aacgm) (t : Tod) (s : DStore) (hs : s.WF D)
    (coords : Name) (hc : ¬ NamesMag coords) (b1 b2 : ℝ) (M1 M2 c1 c2 h1 h2 : F) (ref : ℕ) (ow : Bool)
    (hm : (s.heap ref).length = 2) (hb1 : |b1| < |D.eabLat|) (hb2 : |D.eabLat| ≤ |b2|) (hb2' : |b2| < |D.ocbLat|) :
    ∃ m1 m2 g1 g2 s', dualRevert D s [(some b1, M1, c1), (some b2, M2, c2)] (some ref) ow = .ok ([m1, m2], s') ∧
      dualRevertGeo A D t s coords [(some b1, M1, c1), (some b2, M2, c2)] [h1, h2] (some ref) ow = .ok ([g1, g2], s') ∧
      GeoOf A (decide (NamesGeocentric coords)) t m1 h2 g1 ∧ GeoOf A (decide (NamesGeocentric coords)) t m2 h1 g2 := by
  set pts : List (F × F × F) := [(some b1, M1, c1), (some b2, M2, c2)] with hpts
  have ho := hD.order
  have hout : ∀ p ∈ pts, Outside D p := by
    intro p hp
    simp only [hpts, List.mem_cons, List.not_mem_nil, or_false] at hp
    rcases hp with rfl | rfl
    · exact ⟨b1, rfl, by linarith⟩
    · exact ⟨b2, rfl, hb2'⟩
  obtain ⟨cur, curM, s', k1, k2, k3, k4⟩ := dualRevertGeo_rows hD A t s hs coords hc pts [h1, h2] ref ow rfl hm
    ⟨_, List.mem_cons_self, hout _ List.mem_cons_self⟩
  have hrows := rowsOut_outside D O E pts cur curM (s.heap ref) k1 k2 hm hout
  rw [hrows] at k4
  set out := rowsOut D O E pts curM (s.heap ref) with hdef
  have hlen : out.length = 2 := rowsOut_length D O E pts curM (s.heap ref) k2 hm
  obtain ⟨m1, m2, he⟩ : ∃ m1 m2, out = [m1, m2] := by
    rcases out with - | ⟨a, - | ⟨b, - | ⟨c, l⟩⟩⟩
    · simp at hlen
    · simp at hlen
    · exact ⟨a, b, rfl⟩
    · simp at hlen
  rw [he] at k3 k4
  have himag : imagOf D pts = [1, 0] := by
    have a1 : midMask D (some b1, M1, c1) = false := by
      simp only [midMask, absLt, absGe, Bool.and_eq_false_iff, decide_eq_false_iff_not]
      right; linarith
    have a2 : midMask D (some b2, M2, c2) = true := by
      simp only [midMask, absLt, absGe, Bool.and_eq_true, decide_eq_true_eq]
      exact ⟨hb2', hb2⟩
    have a3 : outMask D (some b1, M1, c1) = true := by
      simpa only [outMask, absLt, decide_eq_true_eq] using hb1
    have a4 : outMask D (some b2, M2, c2) = false := by
      simp only [outMask, absLt, decide_eq_false_iff_not]; linarith
    simp only [imagOf, hpts, List.map_cons, List.map_nil, a1, a2, a3, a4]
    decide
  rw [himag] at k4
  obtain ⟨g1, e1, e2⟩ := toGeo_out A (decide (NamesGeocentric coords)) t m1 h2
  obtain ⟨g2, e3, e4⟩ := toGeo_out A (decide (NamesGeocentric coords)) t m2 h1
  refine ⟨m1, m2, g1, g2, s', k3, ?_, e2, e4⟩
  rw [k4]
  simp only [geoArr, List.map_cons, List.map_nil, List.length_cons, List.length_nil, if_true, List.zip_cons_cons,
    List.zip_nil_left, List.getElem?_cons_zero, List.getElem?_cons_succ, Option.getD_some, Prod.mk.eta, mapE, e1, e3, bind,
    Except.bind, pure, Except.pure]
  rfl

/-- A library that gives the height as latitude. -/
noncomputable def heightLib : Aacgm where
  g2a _ lat lon _ _ := (lat, lon)
  a2g _ _ lon h _ := (h, lon)
  mlt2lon m _ := m

/-- C167, refuted: a location gets the place at the height of another location of the call. -/
theorem C167_heights_refuted : ∃ (A : Aacgm) (D : DualObj) (O E : Rec) (t : Tod) (s : DStore) (pts : List (F × F × F))
    (hs : List F) (mags geo : List (F × F)) (s' : DStore), PairOk D O E ∧ s.WF D ∧ (∀ p ∈ pts, Outside D p) ∧
      dualRevert D s pts (some 0) false = .ok (mags, s') ∧
      dualRevertGeo A D t s "geodetic".toList pts hs (some 0) false = .ok (geo, s') ∧
      ∃ m h g, mags[0]? = some m ∧ hs[0]? = some h ∧ geo[0]? = some g ∧ ¬ GeoOf A false t m h g := by
  have hg : ¬ NamesMag "geodetic".toList := by rw [namesMag_iff]; decide
  have hwf : (⟨fun _ => [some 6, some 6], none, none, none, none⟩ : DStore).WF exDual :=
    ⟨exStore_wf.oWF, exStore_wf.eWF, exStore_wf.oPaired, exStore_wf.ePaired⟩
  have e64 : |exDual.eabLat| = 64 := abs_of_pos (by norm_num [exDual])
  have e74 : |exDual.ocbLat| = 74 := abs_of_pos (by norm_num [exDual])
  obtain ⟨m1, m2, g1, g2, s', k1, k2, k3, -⟩ := C167_heights_swapped exDual_ok heightLib (⟨0, 0, 0, 0⟩ : Tod) _ hwf
    "geodetic".toList hg 30 70 (some 6) (some 6) (some 0) (some 0) (some 100) (some 300) 0 false rfl
    (by rw [e64, abs_of_pos] <;> norm_num) (by rw [e64, abs_of_pos] <;> norm_num) (by rw [e74, abs_of_pos] <;> norm_num)
  refine ⟨_, _, _, _, _, _, _, _, _, _, s', exDual_ok, hwf, ?_, k1, k2, m1, some 100, g1, rfl, rfl, rfl, ?_⟩
  · intro p hp
    simp only [List.mem_cons, List.not_mem_nil, or_false] at hp
    rcases hp with rfl | rfl
    · exact ⟨30, rfl, by rw [e74, abs_of_pos] <;> norm_num⟩
    · exact ⟨70, rfl, by rw [e74, abs_of_pos] <;> norm_num⟩
  · rintro ⟨lon, h1, -⟩
    obtain ⟨lon', h2, -⟩ := k3
    simp only [heightLib, Prod.mk.injEq] at h1 h2
    have := h1.1.trans h2.1.symm
    norm_num at this

/-- A good location equatorward of the OCB has a dual latitude equatorward of the reference latitude of the OCB. -/
theorem piecewise_outside {D : DualObj} {O E : Rec} (hD : PairOk D O E) {lat mlt ρo ρe L x : ℝ} (hg : GoodPt O E lat mlt ρo ρe)
    (hc : ρo < colat D.hem lat) (hp : Piecewise |D.ocbLat| |D.eabLat| ρo ρe (colat D.hem lat) (D.hem * L) x) :
    |D.hem * x| < |D.ocbLat| := by
  obtain ⟨L', M', Fa⟩ := facts hD hg
  have hx : 0 ≤ x ∧ x < |D.ocbLat| := by
    have h0 := hD.ePos
    have h1 := hD.order
    have h2 := Fa.clt
    rcases le_or_gt (colat D.hem lat) ρe with h | h
    · rw [hp.2.1 hc h]
      have hpos : 0 < ρe - ρo := by linarith
      have hr : (ρe - colat D.hem lat) / (ρe - ρo) < 1 := by rw [div_lt_one hpos]; linarith
      have hr0 : 0 ≤ (ρe - colat D.hem lat) / (ρe - ρo) := div_nonneg (by linarith) hpos.le
      constructor
      · have := mul_nonneg (by linarith : (0 : ℝ) ≤ |D.ocbLat| - |D.eabLat|) hr0
        linarith
      · have := mul_lt_mul_of_pos_left hr (by linarith : (0 : ℝ) < |D.ocbLat| - |D.eabLat|)
        linarith
    · rw [hp.2.2 h]
      have hpos : 0 < 90 - ρe := by linarith [hg.equator]
      have hr : (90 - colat D.hem lat) / (90 - ρe) < 1 := by rw [div_lt_one hpos]; linarith
      have hr0 : 0 ≤ (90 - colat D.hem lat) / (90 - ρe) := div_nonneg (by linarith) hpos.le
      constructor
      · exact mul_nonneg h0.le hr0
      · have := mul_lt_mul_of_pos_left hr h0
        linarith
  rw [abs_mul, abs_of_nonneg hx.1]
  have : |D.hem| = 1 := by rw [← hD.oHem]; rcases hD.oValid.hem with h | h <;> rw [h] <;> simp
  rw [this, one_mul]
  exact hx.2

/-- C167, partial: if the library's conversions undo each other, then `revert_coord` after `normal_coord`, with the
magnetic local times that belong to the locations, leads back to the geographic latitude and solar local time, for
locations at one height equatorward of the OCB. -/
theorem C167_round_trip_partial {D : DualObj} {O E : Rec} (hD : PairOk D O E) (A : Aacgm) (t : Tod) (s : DStore) (hs : s.WF D)
    (fresh : ℕ) (coords : Name) (hc : ¬ NamesMag coords) (pts : List (ℝ × ℝ)) (hne : pts ≠ []) (h : F) (ow : Bool)
    (hA : Inverse A (decide (NamesGeocentric coords)) t h)
    (hin : ∀ p ∈ pts, Known A (decide (NamesGeocentric coords)) t
      (fun a m => |a| < 90 ∧ ∃ ρo ρe, GoodPt O E a m ρo ρe ∧ ρo < colat D.hem a) p.1 p.2 h) :
    ∃ qs out s', List.Forall₂ (MagOf A (decide (NamesGeocentric coords)) t) (pts.map fun p => (some p.1, some p.2, h)) qs ∧
      dualNormalGeo A D t s fresh coords (pts.map fun p => (some p.1, some p.2, h)) ow = .ok (out, s') ∧
      ∀ (u : DStore) (ref : ℕ) (ow' : Bool), u.WF D → u.heap ref = qs.map (·.2) →
        ∃ back u', dualRevertGeo A D t u coords (out.map fun o => (o.1, o.2.1, o.2.2.2)) (pts.map fun _ => h) (some ref) ow'
            = .ok (back, u') ∧
          List.Forall₂ (fun p q => ∃ l, q = (some p.1, some l) ∧ 0 ≤ l ∧ l < 24 ∧ SameHour l p.2) pts back := by
  set geoc := decide (NamesGeocentric coords) with hgeoc
  obtain ⟨qs, out, s', h1, h2, h3⟩ := C167_normal hD A t s hs fresh coords hc (pts.map fun p => (some p.1, some p.2, h)) ow
  refine ⟨qs, out, s', h1, h3, ?_⟩
  intro u ref ow' hu href
  rw [List.forall₂_map_left_iff] at h1
  have hq : ∃ ms : List (ℝ × ℝ), qs = ms.map (fun m => (some m.1, some m.2)) ∧
      List.Forall₂ (fun p m => ∃ lon, SolarTime lon t p.2 ∧ A.g2a geoc (some p.1) (some lon) h t = (some m.1, some m.2) ∧
        |m.1| < 90 ∧ ∃ ρo ρe, GoodPt O E m.1 m.2 ρo ρe ∧ ρo < colat D.hem m.1) pts ms := by
    clear h2 h3 href hne
    induction h1 with
    | nil => exact ⟨[], rfl, .nil⟩
    | @cons p q ps qs h hs ih =>
      obtain ⟨ms, rfl, hms⟩ := ih fun p hp => hin p (List.mem_cons_of_mem _ hp)
      obtain ⟨lon, e1, -, e2⟩ := h
      rcases e1 with ⟨-, e1⟩ | ⟨x, y, rfl, e1, e3⟩
      · cases e1
      · cases e1
        obtain ⟨a, m, e4, e5⟩ := hin p List.mem_cons_self x e3
        refine ⟨(a, m) :: ms, ?_, .cons ⟨x, e3, e4, e5⟩ hms⟩
        rw [List.map_cons, e2]
        exact congrArg (· :: _) e4
  obtain ⟨ms, rfl, hms⟩ := hq
  have hgood : ∀ m ∈ ms, ∃ ρo ρe, GoodPt O E m.1 m.2 ρo ρe ∧ ρo < colat D.hem m.1 := by
    clear h1 h2 h3 href hne hin
    induction hms with
    | nil => simp
    | cons h hs ih =>
      intro m hm
      rcases List.mem_cons.1 hm with rfl | hm
      · obtain ⟨lon, -, -, -, a⟩ := h; exact a
      · exact ih m hm
  obtain ⟨o1, s1, n1, -, -, n2⟩ := dualNormal_out hD s hs fresh (ms.map fun m => (some m.1, some m.2)) ow
  rw [h2] at n1
  simp only [Except.ok.injEq, Prod.mk.injEq] at n1
  obtain ⟨rfl, rfl⟩ := n1
  obtain ⟨o2, s2, r1, r2⟩ := C36_round_trip hD s hs fresh (ms.map fun m => (some m.1, some m.2)) ow (by
    intro p hp
    obtain ⟨m, hm, rfl⟩ := List.mem_map.1 hp
    obtain ⟨ρo, ρe, g, -⟩ := hgood m hm
    exact .inl ⟨m.1, m.2, ρo, ρe, rfl, g⟩)
  rw [h2] at r1
  simp only [Except.ok.injEq, Prod.mk.injEq] at r1
  obtain ⟨rfl, rfl⟩ := r1
  obtain ⟨backM, u', r3, r4⟩ := r2 u ref ow' hu href
  rw [List.forall₂_map_left_iff] at n2 r4
  have hlen : out.length = pts.length := by rw [← n2.length_eq, hms.length_eq]
  have hout : ∀ p ∈ out.map (fun o => (o.1, o.2.1, o.2.2.2)), Outside D p := by
    intro p hp
    obtain ⟨o, ho, rfl⟩ := List.mem_map.1 hp
    obtain ⟨i, hi, rfl⟩ := List.mem_iff_getElem.1 ho
    have hi' : i < ms.length := by rw [n2.length_eq]; exact hi
    have hrel := List.Forall₂.get n2 hi' hi
    obtain ⟨ρo, ρe, g, hcol⟩ := hgood ms[i] (List.getElem_mem hi')
    obtain ⟨x, L, M, e1, e2, e3⟩ := hrel.1 _ _ ρo ρe rfl g
    simp only [List.get_eq_getElem] at e2 e3
    refine ⟨D.hem * x, by rw [e2], piecewise_outside hD g hcol e3⟩
  have hmap : ((out.map fun o => (o.1, o.2.1, o.2.2.2)).map fun _ => h) = pts.map fun _ => h := by
    rw [List.map_const', List.map_const', List.length_map, hlen]
  obtain ⟨mags, geo, u'', k1, k2, k3⟩ := C167_outside_partial hD A t u hu coords hc (out.map fun o => (o.1, o.2.1, o.2.2.2)) h
    ref ow' (by rw [href]; simp [n2.length_eq]) (by
      intro hnil
      rw [List.map_eq_nil_iff] at hnil
      rw [hnil] at hlen
      exact hne (List.length_eq_zero_iff.1 hlen.symm)) hout
  rw [r3] at k1
  simp only [Except.ok.injEq, Prod.mk.injEq] at k1
  obtain ⟨rfl, rfl⟩ := k1
  refine ⟨geo, u', by rw [← hmap]; exact k2, ?_⟩
  clear h1 h2 h3 href hne hin r2 r3 k2 n2 hlen hout hmap hgood
  induction hms generalizing backM geo with
  | nil => cases r4; cases k3; exact .nil
  | cons hh hs ih =>
    cases r4 with
    | cons b1 bs =>
      cases k3 with
      | cons c1 cs =>
        obtain ⟨lon, a1, a2, a3, ρo, ρe, g, -⟩ := hh
        rcases b1 with ⟨la, mlt, m, e1, -, rfl, e4⟩ | ⟨b1, -⟩
        · simp only [Prod.mk.injEq, Option.some.injEq] at e1
          obtain ⟨rfl, rfl⟩ := e1
          exact .cons (geo_back hA a1 a2 (e4 a3) c1) (ih _ bs _ cs)
        · exact absurd (by rw [← hD.oHem]; exact g.hem) (b1 _ _ rfl)

/-! ### examples -/

example : (∀ p ∈ [((some 30 : F), (some 6 : F), (some 0 : F)), (some 70, some 6, some 0)], Outside exDual p) ∧
    Poleward exDual (some (80 : ℝ), some 6, some 0) ∧ InHem exDual.hem 80 ∧ ¬ NamesMag "geocentric".toList := by
  have e74 : |exDual.ocbLat| = 74 := abs_of_pos (by norm_num [exDual])
  refine ⟨?_, ⟨80, rfl, by rw [e74, abs_of_pos] <;> norm_num⟩, (sign_hem 80 (by norm_num)).1, by rw [namesMag_iff]; decide⟩
  intro p hp
  simp only [List.mem_cons, List.not_mem_nil, or_false] at hp
  rcases hp with rfl | rfl
  · exact ⟨30, rfl, by rw [e74, abs_of_pos] <;> norm_num⟩
  · exact ⟨70, rfl, by rw [e74, abs_of_pos] <;> norm_num⟩

/-- A library for a field whose poles are those of the rotation, with magnetic local times in [0, 24). -/
noncomputable def axialDay : Aacgm where
  g2a _ lat lon _ _ := (lat, lon.map fun l => l / 15 - 24 * ⌊l / 360⌋)
  a2g _ lat lon _ _ := (lat, lon)
  mlt2lon m _ := m.map (· * 15)

example : Inverse axialDay false ⟨0, 0, 0, 0⟩ (some 350) ∧ ∀ p ∈ [((65 : ℝ), (6 : ℝ)), (30, 6)],
    Known axialDay false ⟨0, 0, 0, 0⟩
      (fun a m => |a| < 90 ∧ ∃ ρo ρe, GoodPt exRec exEab a m ρo ρe ∧ ρo < colat exDual.hem a) p.1 p.2 (some 350) := by
  constructor
  · intro lat lon a m m' e ⟨k, hk⟩
    simp only [axialDay, Option.map_some, Prod.mk.injEq, Option.some.injEq] at e
    obtain ⟨rfl, rfl⟩ := e
    exact ⟨m' * 15, rfl, k - ⌊lon / 360⌋, by rw [hk]; push_cast; ring⟩
  · intro p hp lon hlon
    have h6 : lon / 15 - 24 * ⌊lon / 360⌋ = 6 := by
      have hp2 : p.2 = 6 := by
        simp only [List.mem_cons, List.not_mem_nil, or_false] at hp
        rcases hp with rfl | rfl <;> rfl
      obtain ⟨k, hk⟩ := hlon
      rw [hp2] at hk
      simp only [utHours, Nat.cast_zero, Int.cast_zero, zero_div, add_zero] at hk
      have : ⌊lon / 360⌋ = -k := by
        rw [Int.floor_eq_iff]
        push_cast
        constructor <;> linarith
      rw [this]
      push_cast
      linarith
    refine ⟨p.1, 6, by simp only [axialDay, Option.map_some, h6], ?_⟩
    simp only [List.mem_cons, List.not_mem_nil, or_false] at hp
    rcases hp with rfl | rfl
    · exact ⟨by rw [abs_lt]; constructor <;> norm_num, 21, 31, exGood 65 (by norm_num) (by norm_num),
        by norm_num [colat, exDual]⟩
    · exact ⟨by rw [abs_lt]; constructor <;> norm_num, 21, 31, exGood 30 (by norm_num) (by norm_num),
        by norm_num [colat, exDual]⟩

end Ocb.Geo
