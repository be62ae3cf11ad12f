import Verif.Model.DualGrid
import Verif.Props.Dual

/-!
# C181-C183: the coordinate methods of `DualBoundary` for arrays of several dimensions
-/

set_option autoImplicit false

namespace Ocb.Coord

theorem rowHas_iff {α : Type*} (k : ℕ) (l : List α) (f : α → Bool) (i : ℕ) :
    rowHas k (l.map f) i = true ↔ ∃ j a, l[j]? = some a ∧ f a = true ∧ j / k = i / k := by
  unfold rowHas
  rw [List.any_eq_true]
  constructor
  · rintro ⟨⟨b, j⟩, hm, h⟩
    rw [List.mem_zipIdx_iff_getElem?, List.getElem?_map] at hm
    simp only [Bool.and_eq_true, decide_eq_true_eq] at h
    cases hl : l[j]? with
    | none => rw [hl] at hm; simp at hm
    | some a =>
      rw [hl] at hm
      simp only [Option.map_some, Option.some.injEq] at hm
      exact ⟨j, a, hl, by rw [hm]; exact h.1, h.2⟩
  · rintro ⟨j, a, hl, hf, hj⟩
    refine ⟨(f a, j), ?_, by simp [hf, hj]⟩
    rw [List.mem_zipIdx_iff_getElem?, List.getElem?_map, hl]
    rfl

/-- In a row whose entries all have the same value, `np.where(...)[0]` is right. -/
theorem rowHas_own {α : Type*} (k : ℕ) (l : List α) (f : α → Bool) (i : ℕ) (b : Bool) (a : α) (hi : l[i]? = some a)
    (h : ∀ j c, l[j]? = some c → j / k = i / k → f c = b) : rowHas k (l.map f) i = b := by
  cases b with
  | true => exact (rowHas_iff k l f i).2 ⟨i, a, hi, h i a hi rfl, rfl⟩
  | false =>
    rw [← Bool.not_eq_true, rowHas_iff]
    rintro ⟨j, c, hj, hf, hjk⟩
    rw [h j c hj hjk] at hf
    cases hf

theorem rowHas_one {α : Type*} (l : List α) (f : α → Bool) (i : ℕ) (a : α) (hi : l[i]? = some a) :
    rowHas 1 (l.map f) i = f a := by
  refine rowHas_own 1 l f i (f a) a hi ?_
  intro j c hj hjk
  rw [Nat.div_one, Nat.div_one] at hjk
  subst hjk
  rw [hi] at hj
  cases hj
  rfl

/-! ### `normal_coord` -/

/-- The three regions. -/
inductive Zone where
  | polar
  | auroral
  | outer
deriving DecidableEq

/-- A good location in a region: poleward of the OCB, between the boundaries, equatorward of the EAB. -/
def InZone (O E : Rec) (z : Zone) (p : Option ℝ × Option ℝ) : Prop :=
  ∃ lat mlt ρo ρe, p = (some lat, some mlt) ∧ GoodPt O E lat mlt ρo ρe ∧
    match z with
    | .polar => 90 - ρo ≤ |lat|
    | .auroral => 90 - ρe ≤ |lat| ∧ |lat| < 90 - ρo
    | .outer => |lat| < 90 - ρe

/-- A location of the other hemisphere, or one with a NaN. -/
def OffHem (D : DualObj) (p : Option ℝ × Option ℝ) : Prop := ∀ lat mlt, p = (some lat, some mlt) → ¬ InHem D.hem lat

/-- The location with what the lines before the regions have made of it. -/
noncomputable def rowOf (O E : Rec) (f : Option ℝ × Option ℝ → Option ℝ × Option ℝ × Option ℝ) (p : Option ℝ × Option ℝ) :
    GRow := ((if wrongHem O.hem p.1 then none else p.1, f p), p.2.bind (bLat O), p.2.bind (bLat E))

theorem rowOf_good {D : DualObj} {O E : Rec} (hD : PairOk D O E) {f : Option ℝ × Option ℝ → Option ℝ × Option ℝ × Option ℝ}
    (hf : ∀ p, NormalOut O p (f p)) {lat mlt ρo ρe : ℝ} (hg : GoodPt O E lat mlt ρo ρe) :
    ∃ L M, Facts D O E lat mlt ρo ρe L M ∧ rowOf O E f (some lat, some mlt) =
      ((some lat, some L, some M, some (O.rf mlt)), some (D.hem * (90 - ρo)), some (D.hem * (90 - ρe))) := by
  obtain ⟨L, M, hF⟩ := facts hD hg
  refine ⟨L, M, hF, ?_⟩
  rcases hf (some lat, some mlt) with ⟨a, b, e, hin, L', M', h1, h2, -⟩ | ⟨h, -⟩
  · simp only [Prod.mk.injEq, Option.some.injEq] at e
    obtain ⟨rfl, rfl⟩ := e
    rw [hF.norm] at h1
    simp only [Except.ok.injEq, Prod.mk.injEq] at h1
    obtain ⟨rfl, rfl, -⟩ := h1
    have hw : wrongHem O.hem (some lat) = false := (wrongHem_iff _ _).2 ⟨lat, rfl, hg.hem⟩
    simp only [rowOf, h2, hw, Bool.false_eq_true, if_false, Option.bind_some, hF.ob, hF.eb]
  · exact absurd hg.hem (h lat mlt rfl)

theorem rowOf_masks {D : DualObj} {O E : Rec} (hD : PairOk D O E) {f : Option ℝ × Option ℝ → Option ℝ × Option ℝ × Option ℝ}
    (hf : ∀ p, NormalOut O p (f p)) {z : Zone} {p : Option ℝ × Option ℝ} (hz : InZone O E z p) :
    (rowOf O E f p).out = decide (z = .outer) ∧ (rowOf O E f p).mid = decide (z = .auroral) ∧
      (z = .polar → (rowOf O E f p).ocb D = true) := by
  obtain ⟨lat, mlt, ρo, ρe, rfl, hg, hz⟩ := hz
  obtain ⟨L, M, hF, hr⟩ := rowOf_good hD hf hg
  have hoe := hg.order
  rw [hr]
  simp only [GRow.out, GRow.mid, GRow.ocb, absLt, absGe, hF.absob, hF.abseb]
  cases z with
  | polar =>
    simp only at hz
    refine ⟨by simp; linarith, by simp; intro h; linarith, fun _ => ?_⟩
    have h3 := hF.inside.2 (by linarith [hF.abslat])
    simp only [decide_eq_true_eq]
    refine le_trans h3 ?_
    rcases hD.oValid.hem with h | h <;> rw [hD.oHem] at h <;> rw [h]
    · rw [one_mul]; exact le_abs_self L
    · rw [neg_one_mul]; exact neg_le_abs L
  | auroral =>
    simp only at hz
    exact ⟨by simp; linarith, by simp; exact ⟨hz.2, by linarith⟩, fun h => by cases h⟩
  | outer =>
    simp only at hz
    exact ⟨by simp; linarith, by simp; intro h; linarith, fun h => by cases h⟩

theorem rowOf_off {D : DualObj} {O E : Rec} (hD : PairOk D O E) {f : Option ℝ × Option ℝ → Option ℝ × Option ℝ × Option ℝ}
    (hf : ∀ p, NormalOut O p (f p)) {p : Option ℝ × Option ℝ} (hz : OffHem D p) :
    (rowOf O E f p).out = false ∧ (rowOf O E f p).mid = false ∧ (rowOf O E f p).1.2.1 = none ∧
      (rowOf O E f p).ocb D = false := by
  have hn : (f p).1 = none := by
    rcases hf p with ⟨a, b, rfl, hin, -⟩ | ⟨-, h, -⟩
    · rw [hD.oHem] at hin; exact absurd hin (hz a b rfl)
    · exact h
  obtain ⟨l, m⟩ := p
  cases hw : wrongHem O.hem l with
  | true => simp [rowOf, hw, GRow.out, GRow.mid, GRow.ocb, absLt, absGe, hn]
  | false =>
    obtain ⟨lat, rfl, hin⟩ := (wrongHem_iff _ _).1 hw
    cases m with
    | none => simp [rowOf, hw, GRow.out, GRow.mid, GRow.ocb, absLt, absGe, hn]
    | some m => rw [hD.oHem] at hin; exact absurd hin (hz lat m rfl)

/-- The flat call and the one for several dimensions do the same up to the regions. -/
theorem normal_common {D : DualObj} {O E : Rec} (hD : PairOk D O E) (s : DStore) (hs : s.WF D) (fresh : ℕ)
    (pts : List (Option ℝ × Option ℝ)) (ow : Bool) :
    (∃ r, (∀ k, dualNormalGrid k D s fresh pts ow = r) ∧ dualNormal D s fresh pts ow = r ∧
      ∀ p ∈ pts, ∀ lat mlt ρo ρe, p = (some lat, some mlt) → ¬ GoodPt O E lat mlt ρo ρe) ∨
    ∃ f s', (∀ p, NormalOut O p (f p)) ∧
      (∀ k, dualNormalGrid k D s fresh pts ow = .ok (gridRows k D (pts.map (rowOf O E f)), s')) ∧
      dualNormal D s fresh pts ow = .ok ((pts.map (rowOf O E f)).map (fun r =>
        (dualEntry D (decide (((pts.map (rowOf O E f)).map fun r => regionCount D r.1.1 r.1.2.1 r.2.1 r.2.2).sum < pts.length))
          r.1.1 r.1.2.1 r.2.1 r.2.2, r.1.2.2.1, r.1.2.1, r.1.2.2.2)), s') := by
  have hsel : ¬ (D.recInd < 0 ∨ D.records ≤ D.recInd) := by have := hD.sel.pos; have := hD.sel.lt; omega
  by_cases hex : ∃ p ∈ pts, ∃ lat, p.1 = some lat ∧ InHem O.hem lat
  · obtain ⟨f, hf, hmap⟩ := normalArr_map O hD.oValid
    by_cases hall : ((pts.map f).all fun o => o.1.isNone) = true
    · left
      refine ⟨.ok ((pts.map f).map fun o => (o.1, o.2.1, o.1, o.2.2), s), fun k => ?_, ?_, ?_⟩
      · unfold dualNormalGrid
        rw [if_neg hsel, selRec_sel hD.sel]
        simp only [bind, Except.bind, hmap pts hex]
        rw [if_pos hall]
        rfl
      · unfold dualNormal
        rw [if_neg hsel, selRec_sel hD.sel]
        simp only [bind, Except.bind, hmap pts hex]
        rw [if_pos hall]
        rfl
      · rintro p hp lat mlt ρo ρe rfl hg
        rw [List.all_eq_true] at hall
        have hnone := hall (f (some lat, some mlt)) (List.mem_map.2 ⟨_, hp, rfl⟩)
        rcases hf (some lat, some mlt) with ⟨a, b, e, -, L, M, -, h, -⟩ | ⟨h, -⟩
        · rw [h] at hnone; simp at hnone
        · exact h lat mlt rfl hg.hem
    · right
      obtain ⟨s', b1, -, -, -, -⟩ := boundStep_out hD.sel hD.oDaily hD.eDaily
        { s with heap := Function.update s.heap fresh (pts.map (·.2)) } ⟨hs.oWF, hs.eWF, hs.oPaired, hs.ePaired⟩ fresh ow
      simp only [Function.update_self] at b1
      have hrows : (((pts.map fun p => if wrongHem O.hem p.1 then none else p.1).zip (pts.map f)).zip
              (((pts.map (·.2)).map (·.bind (bLat O))).zip ((pts.map (·.2)).map (·.bind (bLat E))))) =
          pts.map (rowOf O E f) := by
        rw [List.map_map, List.map_map, List.zip_map', List.zip_map', List.zip_map']
        rfl
      refine ⟨f, s', hf, fun k => ?_, ?_⟩
      · unfold dualNormalGrid
        rw [if_neg hsel, selRec_sel hD.sel]
        simp only [bind, Except.bind, hmap pts hex]
        rw [if_neg hall]
        simp only [b1, hrows]
        rfl
      · unfold dualNormal
        rw [if_neg hsel, selRec_sel hD.sel]
        simp only [bind, Except.bind, hmap pts hex]
        rw [if_neg hall]
        simp only [b1, hrows, List.length_map]
        rfl
  · left
    push Not at hex
    obtain ⟨out, lats, h1, rfl⟩ := normalArr_nan O pts hex
    refine ⟨.ok ((pts.map fun _ => ((none : Option ℝ), (none : Option ℝ), (none : Option ℝ))).map
        fun o => (o.1, o.2.1, o.1, o.2.2), s), fun k => ?_, ?_, ?_⟩
    · unfold dualNormalGrid
      rw [if_neg hsel, selRec_sel hD.sel]
      simp only [bind, Except.bind, h1]
      rw [if_pos (by simp)]
      rfl
    · unfold dualNormal
      rw [if_neg hsel, selRec_sel hD.sel]
      simp only [bind, Except.bind, h1]
      rw [if_pos (by simp)]
      rfl
    · rintro p hp lat mlt ρo ρe rfl hg
      exact hex _ hp lat rfl hg.hem

theorem gridRows_get (k : ℕ) (D : DualObj) (rows : List GRow) (i : ℕ) (r : GRow) (hi : rows[i]? = some r) :
    ∃ bad, (bad = decide ((rows.map fun r => regionCount D r.1.1 r.1.2.1 r.2.1 r.2.2).sum < rows.length / k)) ∧
      (gridRows k D rows)[i]? = some (gridEntry D bad (rowHas k (rows.map GRow.mid) i) (rowHas k (rows.map GRow.out) i)
        (rowHas k (rows.map (GRow.ocb D)) i) r.1.1 r.1.2.1 r.2.1 r.2.2, r.1.2.2.1, r.1.2.1, r.1.2.2.2) := by
  refine ⟨_, rfl, ?_⟩
  unfold gridRows
  simp only [List.getElem?_map, List.getElem?_zipIdx, hi, Option.map_some, Nat.zero_add]

theorem gridRows_length (k : ℕ) (D : DualObj) (rows : List GRow) : (gridRows k D rows).length = rows.length := by
  simp [gridRows]

/-- With the masks of the location itself the assignments are those of the flat call. -/
theorem gridEntry_own (D : DualObj) (bad : Bool) (r : GRow) :
    gridEntry D bad r.mid r.out (r.ocb D) r.1.1 r.1.2.1 r.2.1 r.2.2 = dualEntry D bad r.1.1 r.1.2.1 r.2.1 r.2.2 := by
  obtain ⟨⟨lat, L, M, rc⟩, ob, eb⟩ := r
  simp only [GRow.mid, GRow.out, GRow.ocb, gridEntry, dualEntry]
  cases lat <;> cases ob <;> cases eb <;> simp [absLt, absGe]

/-- C181 in one dimension: the model of `normal_coord` for several dimensions is that for one, for every array of
locations (also for columns, that is, shape `(n, 1)`). -/
theorem C181_column {D : DualObj} {O E : Rec} (hD : PairOk D O E) (s : DStore) (hs : s.WF D) (fresh : ℕ)
    (pts : List (Option ℝ × Option ℝ)) (ow : Bool) :
    dualNormalGrid 1 D s fresh pts ow = dualNormal D s fresh pts ow := by
  rcases normal_common hD s hs fresh pts ow with ⟨r, h1, h2, -⟩ | ⟨f, s', -, h1, h2⟩
  · rw [h1, h2]
  · rw [h1, h2]
    congr 2
    apply List.ext_getElem?
    intro i
    cases hi : (pts.map (rowOf O E f))[i]? with
    | none =>
      rw [List.getElem?_map, hi, Option.map_none, List.getElem?_eq_none_iff, gridRows_length]
      exact List.getElem?_eq_none_iff.1 hi
    | some r =>
      obtain ⟨bad, hb, hr⟩ := gridRows_get 1 D _ i r hi
      rw [hr, List.getElem?_map, hi, Option.map_some, rowHas_one _ _ i r hi, rowHas_one _ _ i r hi, rowHas_one _ _ i r hi,
        gridEntry_own, hb]
      simp

/-- C181 where it holds: if each row has all its locations in one region, or all of them in the other hemisphere, the
results are those of the call with the locations in one dimension.  Missing: rows with several regions. -/
theorem C181_uniform_partial {D : DualObj} {O E : Rec} (hD : PairOk D O E) (s : DStore) (hs : s.WF D) (fresh k : ℕ)
    (pts : List (Option ℝ × Option ℝ)) (ow : Bool)
    (hrows : ∀ m, (∃ z, ∀ (i : ℕ) (p : Option ℝ × Option ℝ), pts[i]? = some p → i / k = m → InZone O E z p) ∨
      ∀ (i : ℕ) (p : Option ℝ × Option ℝ), pts[i]? = some p → i / k = m → OffHem D p) :
    dualNormalGrid k D s fresh pts ow = dualNormal D s fresh pts ow := by
  rcases normal_common hD s hs fresh pts ow with ⟨r, h1, h2, -⟩ | ⟨f, s', hf, h1, h2⟩
  · rw [h1, h2]
  · rw [h1, h2]
    congr 2
    apply List.ext_getElem?
    intro i
    cases hi : pts[i]? with
    | none =>
      rw [List.getElem?_map, List.getElem?_map, hi, Option.map_none, Option.map_none, List.getElem?_eq_none_iff,
        gridRows_length, List.length_map]
      exact List.getElem?_eq_none_iff.1 hi
    | some p =>
      have hi' : (pts.map (rowOf O E f))[i]? = some (rowOf O E f p) := by rw [List.getElem?_map, hi, Option.map_some]
      obtain ⟨bad, -, hr⟩ := gridRows_get k D _ i _ hi'
      have hat : ∀ (j : ℕ) (c : GRow), (pts.map (rowOf O E f))[j]? = some c → ∃ q, pts[j]? = some q ∧ c = rowOf O E f q := by
        intro j c hj
        rw [List.getElem?_map] at hj
        cases hq : pts[j]? with
        | none => rw [hq] at hj; cases hj
        | some q => rw [hq] at hj; cases hj; exact ⟨q, rfl, rfl⟩
      rw [hr, List.getElem?_map, hi', Option.map_some, ← gridEntry_own]
      rcases hrows (i / k) with ⟨z, hz⟩ | hz
      · have hp := rowOf_masks hD hf (hz i p hi rfl)
        have ho : rowHas k ((pts.map (rowOf O E f)).map GRow.out) i = (rowOf O E f p).out := by
          refine rowHas_own k _ _ i _ _ hi' ?_
          intro j c hj hjk
          obtain ⟨q, hq, rfl⟩ := hat j c hj
          rw [(rowOf_masks hD hf (hz j q hq hjk)).1, hp.1]
        have hm : rowHas k ((pts.map (rowOf O E f)).map GRow.mid) i = (rowOf O E f p).mid := by
          refine rowHas_own k _ _ i _ _ hi' ?_
          intro j c hj hjk
          obtain ⟨q, hq, rfl⟩ := hat j c hj
          rw [(rowOf_masks hD hf (hz j q hq hjk)).2.1, hp.2.1]
        rw [ho, hm]
        cases z with
        | polar =>
          have hc : rowHas k ((pts.map (rowOf O E f)).map (GRow.ocb D)) i = true :=
            (rowHas_iff k _ _ i).2 ⟨i, _, hi', hp.2.2 rfl, rfl⟩
          simp only [gridEntry, hc, hp.2.2 rfl]
          simp
        | auroral => simp only [gridEntry, hp.1, hp.2.1]; simp
        | outer => simp only [gridEntry, hp.1]; simp
      · have hp := rowOf_off (E := E) hD hf (hz i p hi rfl)
        have ho : rowHas k ((pts.map (rowOf O E f)).map GRow.out) i = false := by
          refine rowHas_own k _ _ i _ _ hi' ?_
          intro j c hj hjk
          obtain ⟨q, hq, rfl⟩ := hat j c hj
          exact (rowOf_off hD hf (hz j q hq hjk)).1
        have hm : rowHas k ((pts.map (rowOf O E f)).map GRow.mid) i = false := by
          refine rowHas_own k _ _ i _ _ hi' ?_
          intro j c hj hjk
          obtain ⟨q, hq, rfl⟩ := hat j c hj
          exact (rowOf_off hD hf (hz j q hq hjk)).2.1
        rw [ho, hm]
        simp only [gridEntry, hp.1, hp.2.1, hp.2.2.1]
        simp

/-- C181 is false for rows with several regions: one location equatorward of the EAB makes all the good locations of its
row count as equatorward of the EAB, wherever they are. -/
theorem C181_outer_refuted {D : DualObj} {O E : Rec} (hD : PairOk D O E) (s : DStore) (hs : s.WF D) (fresh k : ℕ)
    (pts : List (Option ℝ × Option ℝ)) (ow : Bool) (i j : ℕ) (hij : i / k = j / k) (q : Option ℝ × Option ℝ)
    (hj : pts[j]? = some q) (hq : InZone O E .outer q) (lat mlt ρo ρe : ℝ) (hi : pts[i]? = some (some lat, some mlt))
    (hg : GoodPt O E lat mlt ρo ρe) :
    ∃ out s', dualNormalGrid k D s fresh pts ow = .ok (out, s') ∧ DualLatAt D out i (|D.eabLat| / (90 - ρe) * |lat|) := by
  rcases normal_common hD s hs fresh pts ow with ⟨r, -, -, h⟩ | ⟨f, s', hf, h1, -⟩
  · exact absurd hg (h _ (List.mem_of_getElem? hi) lat mlt ρo ρe rfl)
  · refine ⟨_, s', h1 k, ?_⟩
    obtain ⟨L, M, hF, hr⟩ := rowOf_good hD hf hg
    have hi' : (pts.map (rowOf O E f))[i]? = some (rowOf O E f (some lat, some mlt)) := by
      rw [List.getElem?_map, hi, Option.map_some]
    obtain ⟨bad, -, hg'⟩ := gridRows_get k D _ i _ hi'
    have ho : rowHas k ((pts.map (rowOf O E f)).map GRow.out) i = true := by
      refine (rowHas_iff k _ _ i).2 ⟨j, rowOf O E f q, by rw [List.getElem?_map, hj, Option.map_some], ?_, hij.symm⟩
      rw [(rowOf_masks hD hf hq).1]; rfl
    rw [ho, hr] at hg'
    simp only [gridEntry, if_true, Option.bind_some, Option.map_some] at hg'
    refine ⟨(some M, some L, some (O.rf mlt)), hg'.trans ?_⟩
    congr 3
    have hem1 : D.hem * D.hem = 1 := by rw [← hD.oHem]; exact hD.oValid.hem_sq
    have hne : D.hem ≠ 0 := by rintro h; rw [h] at hem1; norm_num at hem1
    have hE : D.eabLat = D.hem * |D.eabLat| := by
      rw [← hD.eLat, ← hD.eValid.hem_blat, hD.eHem, ← mul_assoc, hem1, one_mul]
    have h90 : 90 - ρe ≠ 0 := by linarith [hg.equator]
    rw [hF.abslat]
    have hlat := hF.latEq
    generalize |D.eabLat| = e at hE ⊢
    generalize colat D.hem lat = c at hlat ⊢
    rw [hE, hlat]
    congr 1
    field_simp
    ring

/-- Likewise for a location between the boundaries, if none of the row is equatorward of the EAB. -/
theorem C181_auroral_refuted {D : DualObj} {O E : Rec} (hD : PairOk D O E) (s : DStore) (hs : s.WF D) (fresh k : ℕ)
    (pts : List (Option ℝ × Option ℝ)) (ow : Bool) (i j : ℕ) (hij : i / k = j / k) (q : Option ℝ × Option ℝ)
    (hj : pts[j]? = some q) (hq : InZone O E .auroral q)
    (hno : ∀ (n : ℕ) (p : Option ℝ × Option ℝ), pts[n]? = some p → n / k = i / k →
      InZone O E .polar p ∨ InZone O E .auroral p ∨ OffHem D p)
    (lat mlt ρo ρe : ℝ) (hi : pts[i]? = some (some lat, some mlt)) (hg : GoodPt O E lat mlt ρo ρe) (hoe : ρo < ρe) :
    ∃ out s', dualNormalGrid k D s fresh pts ow = .ok (out, s') ∧
      DualLatAt D out i (|D.eabLat| + (|D.ocbLat| - |D.eabLat|) * ((|lat| - (90 - ρe)) / (ρe - ρo))) := by
  rcases normal_common hD s hs fresh pts ow with ⟨r, -, -, h⟩ | ⟨f, s', hf, h1, -⟩
  · exact absurd hg (h _ (List.mem_of_getElem? hi) lat mlt ρo ρe rfl)
  · refine ⟨_, s', h1 k, ?_⟩
    obtain ⟨L, M, hF, hr⟩ := rowOf_good hD hf hg
    have hi' : (pts.map (rowOf O E f))[i]? = some (rowOf O E f (some lat, some mlt)) := by
      rw [List.getElem?_map, hi, Option.map_some]
    obtain ⟨bad, -, hg'⟩ := gridRows_get k D _ i _ hi'
    have ho : rowHas k ((pts.map (rowOf O E f)).map GRow.out) i = false := by
      refine rowHas_own k _ _ i _ _ hi' ?_
      intro n c hn hnk
      rw [List.getElem?_map] at hn
      cases hp : pts[n]? with
      | none => rw [hp] at hn; cases hn
      | some p =>
        rw [hp] at hn; cases hn
        rcases hno n p hp hnk with h | h | h
        · exact (rowOf_masks hD hf h).1
        · exact (rowOf_masks hD hf h).1
        · exact (rowOf_off hD hf h).1
    have hm : rowHas k ((pts.map (rowOf O E f)).map GRow.mid) i = true := by
      refine (rowHas_iff k _ _ i).2 ⟨j, rowOf O E f q, by rw [List.getElem?_map, hj, Option.map_some], ?_, hij.symm⟩
      rw [(rowOf_masks hD hf hq).2.1]; rfl
    rw [ho, hm, hr] at hg'
    simp only [gridEntry, if_true, Option.bind_some, Option.map_some, Bool.false_eq_true, if_false] at hg'
    refine ⟨(some M, some L, some (O.rf mlt)), hg'.trans ?_⟩
    congr 3
    have hem1 : D.hem * D.hem = 1 := by rw [← hD.oHem]; exact hD.oValid.hem_sq
    have hne : D.hem ≠ 0 := by rintro h; rw [h] at hem1; norm_num at hem1
    have hE : D.eabLat = D.hem * |D.eabLat| := by
      rw [← hD.eLat, ← hD.eValid.hem_blat, hD.eHem, ← mul_assoc, hem1, one_mul]
    have hO : D.ocbLat = D.hem * |D.ocbLat| := by
      rw [← hD.oLat, ← hD.oValid.hem_blat, hD.oHem, ← mul_assoc, hem1, one_mul]
    have h90 : ρe - ρo ≠ 0 := by linarith
    rw [hF.abslat, show D.hem * (90 - ρo) - D.hem * (90 - ρe) = D.hem * (ρe - ρo) by ring]
    have hlat := hF.latEq
    generalize |D.eabLat| = e at hE ⊢
    generalize |D.ocbLat| = o at hO ⊢
    generalize colat D.hem lat = c at hlat ⊢
    rw [hE, hO, hlat]
    congr 1
    field_simp
    ring

/-- A location on the OCB in a row with one equatorward of the EAB does not get the reference latitude of the OCB, which
the call with the locations in one dimension gives it, unless the four latitudes are in proportion. -/
theorem C181_wrong_refuted {D : DualObj} {O E : Rec} (hD : PairOk D O E) (s : DStore) (hs : s.WF D) (fresh : ℕ) (ow : Bool)
    (lat mlt ρo ρe : ℝ) (hg : GoodPt O E lat mlt ρo ρe) (hlat : |lat| = 90 - ρo) (q : Option ℝ × Option ℝ)
    (hq : InZone O E .outer q) (hne : |D.ocbLat| * (90 - ρe) ≠ |D.eabLat| * (90 - ρo)) :
    ∃ out out' s' s'', dualNormal D s fresh [(some lat, some mlt), q] ow = .ok (out, s') ∧ DualLatAt D out 0 |D.ocbLat| ∧
      dualNormalGrid 2 D s fresh [(some lat, some mlt), q] ow = .ok (out', s'') ∧ ¬ DualLatAt D out' 0 |D.ocbLat| := by
  obtain ⟨out', s'', h1, h2⟩ := C181_outer_refuted hD s hs fresh 2 [(some lat, some mlt), q] ow 0 1 rfl q rfl hq lat mlt ρo ρe
    rfl hg
  obtain ⟨out, s', h3, -⟩ := C35_piecewise hD s hs fresh [(some lat, some mlt), q] ow
  refine ⟨out, out', s', s'', h3, (C35_boundaries hD s s' hs fresh _ ow out h3 0 lat mlt ρo ρe rfl hg).1 hlat, h1, ?_⟩
  rintro ⟨r, hr⟩
  obtain ⟨r', hr'⟩ := h2
  rw [hr] at hr'
  simp only [Option.some.injEq, Prod.mk.injEq] at hr'
  have hem1 : D.hem * D.hem = 1 := by rw [← hD.oHem]; exact hD.oValid.hem_sq
  have hn : D.hem ≠ 0 := by rintro h; rw [h] at hem1; norm_num at hem1
  have h := mul_left_cancel₀ hn hr'.1
  rw [hlat, div_mul_eq_mul_div, eq_div_iff (by linarith [hg.equator])] at h
  exact hne h

/-- An array of two rows, one with two locations poleward of the OCB, the other with two equatorward of the EAB; and a
location on the OCB beside one equatorward of the EAB. -/
example : (∀ m, (∃ z, ∀ (i : ℕ) (p : Option ℝ × Option ℝ),
      [((some 80 : Option ℝ), (some 6 : Option ℝ)), (some 75, some 6), (some 30, some 6), (some 40, some 6)][i]? = some p → i / 2 = m →
        InZone exRec exEab z p) ∨ ∀ (i : ℕ) (p : Option ℝ × Option ℝ),
      [((some 80 : Option ℝ), (some 6 : Option ℝ)), (some 75, some 6), (some 30, some 6), (some 40, some 6)][i]? = some p → i / 2 = m →
        OffHem exDual p) ∧
    GoodPt exRec exEab 69 6 21 31 ∧ |(69 : ℝ)| = 90 - 21 ∧ |exDual.ocbLat| * (90 - 31) ≠ |exDual.eabLat| * (90 - 21) := by
  have hz : ∀ x : ℝ, 0 < x → x ≤ 90 → 69 ≤ x → InZone exRec exEab .polar (some x, some 6) := fun x h0 h1 h2 =>
    ⟨x, 6, 21, 31, rfl, exGood x h0 h1, by simp only; rw [abs_of_pos h0]; linarith⟩
  have hz' : ∀ x : ℝ, 0 < x → x ≤ 90 → x < 59 → InZone exRec exEab .outer (some x, some 6) := fun x h0 h1 h2 =>
    ⟨x, 6, 21, 31, rfl, exGood x h0 h1, by simp only; rw [abs_of_pos h0]; linarith⟩
  refine ⟨?_, exGood 69 (by norm_num) (by norm_num), by norm_num, ?_⟩
  · intro m
    by_cases hm : m = 0
    · refine .inl ⟨.polar, ?_⟩
      rintro (_ | _ | i) p hp hi
      · cases hp; exact hz _ (by norm_num) (by norm_num) (by norm_num)
      · cases hp; exact hz _ (by norm_num) (by norm_num) (by norm_num)
      · omega
    · refine .inl ⟨.outer, ?_⟩
      rintro (_ | _ | _ | _ | i) p hp hi
      · omega
      · omega
      · cases hp; exact hz' _ (by norm_num) (by norm_num) (by norm_num)
      · cases hp; exact hz' _ (by norm_num) (by norm_num) (by norm_num)
      · simp at hp
  · simp only [exDual]; norm_num

/-! ### `revert_coord` and `calc_r` -/

/-- A dual latitude of a region. -/
def LatZone (D : DualObj) (z : Zone) (b : Option ℝ) : Prop :=
  ∃ x, b = some x ∧
    match z with
    | .polar => |D.ocbLat| ≤ |x|
    | .auroral => |D.eabLat| ≤ |x| ∧ |x| < |D.ocbLat|
    | .outer => |x| < |D.eabLat|

theorem latZone_masks {D : DualObj} (hord : |D.eabLat| < |D.ocbLat|) {z : Zone} {b : Option ℝ} (h : LatZone D z b) :
    midLat D b = decide (z = .auroral) ∧ outLat D b = decide (z = .outer) ∧
      absGe b (some D.ocbLat) = decide (z = .polar) := by
  obtain ⟨x, rfl, h⟩ := h
  simp only [midLat, outLat, absLt, absGe]
  cases z with
  | polar =>
    simp only at h
    exact ⟨by simp; intro h'; linarith, by simp; linarith, by simp; exact h⟩
  | auroral =>
    simp only at h
    exact ⟨by simp; exact ⟨h.2, h.1⟩, by simp; linarith, by simp; linarith⟩
  | outer =>
    simp only at h
    exact ⟨by simp; intro h'; linarith, by simp; exact h, by simp; linarith⟩

theorem gridRevertEntry_own (D : DualObj) (hord : |D.eabLat| < |D.ocbLat|) (b : Option ℝ) (cur : Option ℝ × Option ℝ)
    (amlt ob eb : Option ℝ) :
    gridRevertEntry D (midLat D b) (outLat D b) b cur amlt ob eb = dualRevertEntry D b cur amlt ob eb := by
  cases b with
  | none => simp [gridRevertEntry, midLat, outLat, absLt, absGe, dualRevertEntry]
  | some x =>
    simp only [gridRevertEntry, midLat, outLat, absLt, absGe, dualRevertEntry, Option.bind_some, decide_eq_true_eq,
      Bool.and_eq_true]
    by_cases h1 : |x| < |D.eabLat|
    · rw [if_pos h1, if_pos h1]
    · rw [if_neg h1, if_neg h1]
      by_cases h2 : |x| < |D.ocbLat|
      · rw [if_pos ⟨h2, not_lt.1 h1⟩, if_pos h2]
      · rw [if_neg (fun h => h2 h.1), if_neg h2]

theorem gridREntry_own (D : DualObj) (b u ob eb : Option ℝ) :
    gridREntry D (midLat D b) (outLat D b) u ob eb = calcREntry D b u ob eb := by
  cases b with
  | none => simp [gridREntry, midLat, outLat, absLt, absGe, calcREntry]
  | some x =>
    simp only [gridREntry, midLat, outLat, absLt, absGe, calcREntry, decide_eq_true_eq, Bool.and_eq_true]
    by_cases h1 : |x| < |D.eabLat|
    · rw [if_pos h1, if_pos h1]
    · rw [if_neg h1, if_neg h1]
      by_cases h2 : |x| < |D.ocbLat|
      · rw [if_pos ⟨h2, not_lt.1 h1⟩, if_pos h2]
      · rw [if_neg (fun h => h2 h.1), if_neg h2]

/-- Each row has all its latitudes in one region or is NaN throughout. -/
def RowsUniform {α : Type} (D : DualObj) (k : ℕ) (lat : α → Option ℝ) (pts : List α) : Prop :=
  ∀ m, (∃ z, ∀ (i : ℕ) (p : α), pts[i]? = some p → i / k = m → LatZone D z (lat p)) ∨
    ∀ (i : ℕ) (p : α), pts[i]? = some p → i / k = m → lat p = none

theorem rowsUniform_own {α : Type} {D : DualObj} (hord : |D.eabLat| < |D.ocbLat|) {k : ℕ} {lat : α → Option ℝ} {pts : List α}
    (h : RowsUniform D k lat pts) {i : ℕ} {p : α} (hi : pts[i]? = some p) :
    rowHas k (pts.map fun q => midLat D (lat q)) i = midLat D (lat p) ∧
      rowHas k (pts.map fun q => outLat D (lat q)) i = outLat D (lat p) := by
  rcases h (i / k) with ⟨z, hz⟩ | hz
  · have hp := latZone_masks hord (hz i p hi rfl)
    constructor
    · refine rowHas_own k pts (fun q => midLat D (lat q)) i _ p hi ?_
      intro j c hj hjk
      rw [(latZone_masks hord (hz j c hj hjk)).1, hp.1]
    · refine rowHas_own k pts (fun q => outLat D (lat q)) i _ p hi ?_
      intro j c hj hjk
      rw [(latZone_masks hord (hz j c hj hjk)).2.1, hp.2.1]
  · constructor
    · refine rowHas_own k pts (fun q => midLat D (lat q)) i _ p hi ?_
      intro j c hj hjk
      rw [hz j c hj hjk, hz i p hi rfl]
    · refine rowHas_own k pts (fun q => outLat D (lat q)) i _ p hi ?_
      intro j c hj hjk
      rw [hz j c hj hjk, hz i p hi rfl]

theorem zip_get {α β : Type*} {l : List α} {m : List β} {i : ℕ} {r : α × β} (h : (l.zip m)[i]? = some r) :
    l[i]? = some r.1 ∧ m[i]? = some r.2 := by
  rw [List.getElem?_zip_eq_some] at h
  exact h

theorem zipIdx_map_congr {α β : Type*} (l : List α) (f : α × ℕ → β) (g : α → β) (h : ∀ i a, l[i]? = some a → f (a, i) = g a) :
    l.zipIdx.map f = l.map g := by
  apply List.ext_getElem?
  intro i
  rw [List.getElem?_map, List.getElem?_map, List.getElem?_zipIdx]
  cases hi : l[i]? with
  | none => rfl
  | some a => simp only [Option.map_some, Nat.zero_add, h i a hi]

/-- C182 in one dimension: the model of `revert_coord` for several dimensions is that for one. -/
theorem C182_column (D : DualObj) (hord : |D.eabLat| < |D.ocbLat|) (s : DStore) (pts : List (Option ℝ × Option ℝ × Option ℝ))
    (amlt : Option ℕ) (ow : Bool) : dualRevertGrid 1 D s pts amlt ow = dualRevert D s pts amlt ow := by
  unfold dualRevertGrid dualRevert
  cases revertArr (selRec D.ocbRecs D.ocbRecInd) pts with
  | error e => rfl
  | ok cur =>
    simp only [bind, Except.bind]
    have hc : pts.length / 1 = (pts.filter fun p => absGe p.1 (some D.ocbLat)).length ↔
        (pts.all fun p => absGe p.1 (some D.ocbLat)) = true := by
      rw [Nat.div_one, eq_comm, List.length_filter_eq_length_iff, List.all_eq_true]
    simp only [hc]
    split_ifs
    · rfl
    · cases amlt with
      | none => rfl
      | some ref =>
        simp only []
        cases boundStep D s ref ow with
        | error e => rfl
        | ok r =>
          obtain ⟨ob, eb, s1⟩ := r
          simp only [pure, Except.pure, Except.ok.injEq, Prod.mk.injEq, and_true]
          apply zipIdx_map_congr
          intro i a hi
          have hp := (zip_get (zip_get hi).1).1
          simp only [rowHas_one _ _ i _ hp, gridRevertEntry_own D hord]

/-- C182 where it holds: if each row has its latitudes in one region, and the number of latitudes poleward of the OCB is that
of the rows only if all are, then with local times given the results are those of the call in one dimension.  Missing:
other rows and numbers, no local times; see the refutations. -/
theorem C182_uniform_partial {D : DualObj} {O E : Rec} (hD : PairOk D O E) (s : DStore) (hs : s.WF D) (k : ℕ)
    (pts : List (Option ℝ × Option ℝ × Option ℝ)) (ref : ℕ) (hlen : (s.heap ref).length = pts.length) (ow : Bool)
    (hrows : RowsUniform D k (·.1) pts)
    (hcount : pts.length / k = (pts.filter fun p => absGe p.1 (some D.ocbLat)).length → ∀ p ∈ pts, LatZone D .polar p.1) :
    ∃ out s1 s2, dualRevertGrid k D s pts (some ref) ow = .ok (out, s1) ∧ dualRevert D s pts (some ref) ow = .ok (out, s2) := by
  obtain ⟨cur, c1, c2⟩ := revertArr_cur O hD.oValid pts
  obtain ⟨s', b1, -, hh, -, -⟩ := boundStep_out hD.sel hD.oDaily hD.eDaily s hs ref ow
  unfold dualRevertGrid dualRevert
  rw [selRec_sel hD.sel, c1]
  simp only [bind, Except.bind, pure, Except.pure]
  have hzl : ((pts.zip cur).zip ((s'.heap ref).zip (((s.heap ref).map (·.bind (bLat O))).zip
      ((s.heap ref).map (·.bind (bLat E)))))).length = pts.length := by
    have := c2.length_eq
    simp [hh, wrap2, hlen, ← this]
  by_cases hall : (pts.all fun p => absGe p.1 (some D.ocbLat)) = true
  · have hpol : ∀ p ∈ pts, dualRevertEntry D p.1 = fun cur _ _ _ => cur := by
      intro p hp
      rw [List.all_eq_true] at hall
      have := hall p hp
      cases hb : p.1 with
      | none => funext a b c d; rfl
      | some x =>
        rw [hb] at this
        simp only [absGe, decide_eq_true_eq] at this
        funext a b c d
        simp only [dualRevertEntry]
        rw [if_neg (by linarith [hD.order]), if_neg (by linarith)]
    by_cases hc : pts.length / k = (pts.filter fun p => absGe p.1 (some D.ocbLat)).length
    · rw [if_pos hc, if_pos hall]
      exact ⟨_, _, _, rfl, rfl⟩
    · rw [if_neg hc, if_pos hall, b1]
      refine ⟨cur, s', s, ?_, rfl⟩
      simp only [Except.ok.injEq, Prod.mk.injEq, and_true]
      apply List.ext_getElem?
      intro i
      rw [List.getElem?_map, List.getElem?_zipIdx]
      cases hi : ((pts.zip cur).zip ((s'.heap ref).zip (((s.heap ref).map (·.bind (bLat O))).zip
          ((s.heap ref).map (·.bind (bLat E))))))[i]? with
      | none =>
        rw [List.getElem?_eq_none_iff, hzl] at hi
        simp only [Option.map_none]
        exact (List.getElem?_eq_none_iff.2 (by rw [← c2.length_eq]; exact hi)).symm
      | some r =>
        have h1 := zip_get (zip_get hi).1
        simp only [Option.map_some, Nat.zero_add]
        rw [(rowsUniform_own hD.order hrows h1.1).1, (rowsUniform_own hD.order hrows h1.1).2, gridRevertEntry_own D hD.order,
          hpol _ (List.mem_of_getElem? h1.1), h1.2]
  · have hc : ¬ pts.length / k = (pts.filter fun p => absGe p.1 (some D.ocbLat)).length := by
      intro h
      apply hall
      rw [List.all_eq_true]
      intro p hp
      rw [(latZone_masks hD.order (hcount h p hp)).2.2]; rfl
    rw [if_neg hc, if_neg hall, b1]
    simp only []
    refine ⟨_, s', s', rfl, ?_⟩
    simp only [Except.ok.injEq, Prod.mk.injEq, and_true]
    symm
    apply zipIdx_map_congr
    intro i a hi
    have h1 := zip_get (zip_get hi).1
    simp only [(rowsUniform_own hD.order hrows h1.1).1, (rowsUniform_own hD.order hrows h1.1).2, gridRevertEntry_own D hD.order]

/-- C182 is false for locations that are all poleward of the OCB: with two or more in a row the local times are asked for,
which are not needed in one dimension. -/
theorem C182_nomlt_refuted {D : DualObj} {O E : Rec} (hD : PairOk D O E) (s : DStore) (k : ℕ) (hk : 2 ≤ k)
    (pts : List (Option ℝ × Option ℝ × Option ℝ)) (hne : pts ≠ []) (hpol : ∀ p ∈ pts, LatZone D .polar p.1) (ow : Bool) :
    dualRevertGrid k D s pts none ow = .error .valueError ∧
      ∃ out, revertArr (some O) pts = .ok out ∧ dualRevert D s pts none ow = .ok (out, s) := by
  obtain ⟨cur, c1, c2⟩ := revertArr_cur O hD.oValid pts
  have hall : ∀ p ∈ pts, absGe p.1 (some D.ocbLat) = true := fun p hp => by
    rw [(latZone_masks hD.order (hpol p hp)).2.2]; rfl
  unfold dualRevertGrid dualRevert
  rw [selRec_sel hD.sel, c1]
  simp only [bind, Except.bind, pure, Except.pure]
  constructor
  · rw [if_neg]
    rw [List.length_filter_eq_length_iff.2 hall]
    have hpos : 0 < pts.length := List.length_pos_iff.2 hne
    exact (Nat.div_lt_self hpos (by omega)).ne
  · rw [if_pos (List.all_eq_true.2 hall)]
    exact ⟨_, rfl, rfl⟩

/-- C182 is false if the number of latitudes poleward of the OCB is that of the rows: all locations are reverted as if they
were inside the OCB, whatever their local times.  For two locations in a row, the second equatorward of the EAB: -/
theorem C182_count_refuted {D : DualObj} {O E : Rec} (hD : PairOk D O E) (s : DStore) (hs : s.WF D)
    (p q : Option ℝ × Option ℝ × Option ℝ) (hp : LatZone D .polar p.1) (b : ℝ) (hb : q.1 = some b) (hq : |b| < |D.eabLat|)
    (ref : ℕ) (m : Option ℝ) (h e : ℝ) (href : s.heap ref = [m, some h]) (he : bLat E h = some e) (ow : Bool) :
    ∃ c d, revertArr (some O) [p, q] = .ok [c, d] ∧
      (∀ amlt, dualRevertGrid 2 D s [p, q] amlt ow = .ok ([c, d], s)) ∧
      ∃ s' h', SameHour h' h ∧
        dualRevert D s [p, q] (some ref) ow = .ok ([c, (some (e - (D.eabLat - b) * (e / D.eabLat)), some h')], s') := by
  obtain ⟨cur, c1, c2⟩ := revertArr_cur O hD.oValid [p, q]
  obtain ⟨s', b1, -, hh, -, -⟩ := boundStep_out hD.sel hD.oDaily hD.eDaily s hs ref ow
  have hlen := c2.length_eq
  obtain ⟨c, d, rfl⟩ : ∃ c d, cur = [c, d] := by
    match cur, hlen with
    | [c, d], _ => exact ⟨c, d, rfl⟩
  have hp' := (latZone_masks hD.order hp).2.2
  have hq' := (latZone_masks hD.order (z := .outer) (b := q.1) ⟨b, hb, hq⟩).2.2
  obtain ⟨x, hx, hpx⟩ := hp
  simp only at hpx
  refine ⟨c, d, c1, fun amlt => ?_, s', wrapMlt (wrapMlt h), (sameHour_wrap _).trans (sameHour_wrap _), ?_⟩
  · unfold dualRevertGrid
    rw [selRec_sel hD.sel, c1]
    simp only [bind, Except.bind, pure, Except.pure]
    rw [if_pos (by simp [hp', hq'])]
  · unfold dualRevert
    rw [selRec_sel hD.sel, c1]
    simp only [bind, Except.bind, pure, Except.pure]
    rw [if_neg (by simp [hq']), b1]
    simp only [href, hh, Function.update_self, wrap2, List.map_cons, List.map_nil, List.zip_cons_cons, List.zip_nil_left,
      List.zip_nil_right, Option.map_some, Option.bind_some, he, hb, hx, dualRevertEntry, if_pos hq,
      if_neg (show ¬ |x| < |D.eabLat| by linarith [hD.order]), if_neg (show ¬ |x| < |D.ocbLat| by linarith)]

/-- C183 in one dimension: the model of `calc_r` for several dimensions is that for one. -/
theorem C183_column (D : DualObj) (s : DStore) (pts : List (Option ℝ × Option ℝ)) (ref : ℕ) (ow : Bool) :
    calcRGrid 1 D s pts ref ow = calcR D s pts ref ow := by
  unfold calcRGrid calcR
  split_ifs
  · rfl
  · cases pyIdx D.ocbInd D.recInd with
    | error e => rfl
    | ok oi =>
      simp only [bind, Except.bind]
      cases pyIdx D.ocbRecs oi with
      | error e => rfl
      | ok B =>
        simp only []
        cases boundStep D s ref ow with
        | error e => rfl
        | ok r =>
          obtain ⟨ob, eb, s1⟩ := r
          simp only [pure, Except.pure, Except.ok.injEq, Prod.mk.injEq, and_true]
          apply zipIdx_map_congr
          intro i a hi
          have hp := (zip_get hi).1
          simp only [rowHas_one _ _ i _ hp, gridREntry_own]

/-- C183 where it holds: rows with all latitudes in one region.  Missing: other rows. -/
theorem C183_uniform_partial (D : DualObj) (hord : |D.eabLat| < |D.ocbLat|) (s : DStore) (k : ℕ) (pts : List (Option ℝ × Option ℝ))
    (ref : ℕ) (ow : Bool) (hrows : RowsUniform D k (·.1) pts) : calcRGrid k D s pts ref ow = calcR D s pts ref ow := by
  unfold calcRGrid calcR
  split_ifs
  · rfl
  · cases pyIdx D.ocbInd D.recInd with
    | error e => rfl
    | ok oi =>
      simp only [bind, Except.bind]
      cases pyIdx D.ocbRecs oi with
      | error e => rfl
      | ok B =>
        simp only []
        cases boundStep D s ref ow with
        | error e => rfl
        | ok r =>
          obtain ⟨ob, eb, s1⟩ := r
          simp only [pure, Except.pure, Except.ok.injEq, Prod.mk.injEq, and_true]
          apply zipIdx_map_congr
          intro i a hi
          have hp := (zip_get hi).1
          simp only [(rowsUniform_own hord hrows hp).1, (rowsUniform_own hord hrows hp).2, gridREntry_own]

/-- C183 is false for rows with several regions: one latitude equatorward of the EAB gives all the locations of its row the
radii of that region.  A location poleward of the OCB has other radii in one dimension. -/
theorem C183_outer_refuted {D : DualObj} {O E : Rec} (hD : PairOk D O E) (s : DStore) (hs : s.WF D) (k : ℕ)
    (pts : List (Option ℝ × Option ℝ)) (ref : ℕ) (ow : Bool) (i j : ℕ) (hij : i / k = j / k) (p q : Option ℝ × Option ℝ)
    (hj : pts[j]? = some q) (hq : LatZone D .outer q.1) (hi : pts[i]? = some p) (hp : LatZone D .polar p.1) (m : Option ℝ)
    (hm : (s.heap ref)[i]? = some m) :
    ∃ out out' s' s'', calcRGrid k D s pts ref ow = .ok (out, s') ∧
      out[i]? = some (some |D.eabLat|, (m.bind (bLat E)).map fun e => |e|) ∧
      calcR D s pts ref ow = .ok (out', s'') ∧ out'[i]? = some (some (90 - |D.ocbLat|), p.2.map fun c => O.r + c) := by
  obtain ⟨s', b1, -, -, -, -⟩ := boundStep_out hD.sel hD.oDaily hD.eDaily s hs ref ow
  have hsel : ¬ (D.recInd < 0 ∨ D.records ≤ D.recInd) := by have := hD.sel.pos; have := hD.sel.lt; omega
  have hrow : (pts.zip (((s.heap ref).map (·.bind (bLat O))).zip ((s.heap ref).map (·.bind (bLat E)))))[i]? =
      some (p, m.bind (bLat O), m.bind (bLat E)) := by
    rw [List.getElem?_zip_eq_some]
    refine ⟨hi, ?_⟩
    rw [List.getElem?_zip_eq_some, List.getElem?_map, List.getElem?_map, hm]
    exact ⟨rfl, rfl⟩
  have ho : rowHas k (pts.map fun q => outLat D q.1) i = true :=
    (rowHas_iff k pts _ i).2 ⟨j, q, hj, by rw [(latZone_masks hD.order hq).2.1]; rfl, hij.symm⟩
  have e1 : calcR D s pts ref ow = .ok ((pts.zip (((s.heap ref).map (·.bind (bLat O))).zip ((s.heap ref).map (·.bind (bLat E))))).map
      (fun q => calcREntry D q.1.1 (q.1.2.map (O.r + ·)) q.2.1 q.2.2), s') := by
    unfold calcR
    rw [if_neg hsel, pyIdx_pos hD.sel.pos hD.sel.oInd]
    simp only [bind, Except.bind, pure, Except.pure]
    rw [pyIdx_pos hD.sel.oPos hD.sel.oRec, b1]
  have e2 : calcRGrid k D s pts ref ow = .ok
      ((pts.zip (((s.heap ref).map (·.bind (bLat O))).zip ((s.heap ref).map (·.bind (bLat E))))).zipIdx.map
      (fun q => gridREntry D (rowHas k (pts.map fun q => midLat D q.1) q.2) (rowHas k (pts.map fun q => outLat D q.1) q.2)
        (q.1.1.2.map (O.r + ·)) q.1.2.1 q.1.2.2), s') := by
    unfold calcRGrid
    rw [if_neg hsel, pyIdx_pos hD.sel.pos hD.sel.oInd]
    simp only [bind, Except.bind, pure, Except.pure]
    rw [pyIdx_pos hD.sel.oPos hD.sel.oRec, b1]
  refine ⟨_, _, s', s', e2, ?_, e1, ?_⟩
  · rw [List.getElem?_map, List.getElem?_zipIdx, hrow]
    simp only [Option.map_some, Nat.zero_add, ho, gridREntry, if_true]
  · obtain ⟨x, hx, hpx⟩ := hp
    simp only at hpx
    rw [List.getElem?_map, hrow, Option.map_some]
    simp only [calcREntry, hx]
    rw [if_neg (by linarith [hD.order]), if_neg (by linarith)]

/-- Not empty: latitudes of the regions of the example pair, rows with one region each, and the boundary latitude at six
hours. -/
example : RowsUniform exDual 2 (·.1) [((some 80 : Option ℝ), (some 0 : Option ℝ)), (some 75, some 0), (some 30, some 0), (some 40, some 0)] ∧
    LatZone exDual .polar (some 80) ∧ LatZone exDual .outer (some 30) ∧ bLat exEab 6 = some 59 := by
  have hz : ∀ x : ℝ, 74 ≤ x → LatZone exDual .polar (some x) := fun x h =>
    ⟨x, rfl, by simp only [exDual]; rw [abs_of_pos (by norm_num), abs_of_pos (by linarith)]; exact h⟩
  have hz' : ∀ x : ℝ, 0 ≤ x → x < 64 → LatZone exDual .outer (some x) := fun x h h' =>
    ⟨x, rfl, by simp only [exDual]; rw [abs_of_nonneg h, abs_of_pos (by norm_num)]; exact h'⟩
  refine ⟨?_, hz _ (by norm_num), hz' _ (by norm_num) (by norm_num), ?_⟩
  · intro m
    by_cases hm : m = 0
    · refine .inl ⟨.polar, ?_⟩
      rintro (_ | _ | i) p hp hi
      · cases hp; exact hz _ (by norm_num)
      · cases hp; exact hz _ (by norm_num)
      · omega
    · refine .inl ⟨.outer, ?_⟩
      rintro (_ | _ | _ | _ | i) p hp hi
      · omega
      · omega
      · cases hp; exact hz' _ (by norm_num) (by norm_num)
      · cases hp; exact hz' _ (by norm_num) (by norm_num)
      · simp at hp
  · obtain ⟨L, M, F⟩ := facts exDual_ok (exGood 30 (by norm_num) (by norm_num))
    rw [F.eb]
    simp only [exDual]
    norm_num

end Ocb.Coord
