import Verif.Model.SetDual
import Verif.Props.Dual
import Verif.Props.Pairs
import Verif.Props.SmagOut

/-!
# C169, C170: vectors and dual boundaries
-/

set_option autoImplicit false

namespace Ocb.Scale

open Ocb.Time Ocb.Coord Ocb.Vec

/-- The object with another index and other boundary latitudes. -/
def reIdx (i : Arr ℤ) (a : Arr F) (v : VD) : VD := { v with ocbInd := i, ocbLat := a }

theorem angle_other (i : Arr ℤ) (a : Arr F) (v : VD) : calcPoleAngle (reIdx i a v) = (calcPoleAngle v).map (reIdx i a) := by
  unfold calcPoleAngle reIdx
  simp only [bind, Except.bind, pure, Except.pure]
  repeat' split
  all_goals first | rfl | skip
  all_goals simp_all [Except.map]

theorem quad_other (i : Arr ℤ) (a : Arr F) (v : VD) : defineQuadrants (reIdx i a v) = (defineQuadrants v).map (reIdx i a) := by
  unfold defineQuadrants reIdx
  simp only [bind, Except.bind, pure, Except.pure]
  repeat' split
  all_goals first | rfl | skip
  all_goals simp_all [Except.map]

theorem scale_other (i : Arr ℤ) (a : Arr F) (v : VD) : scaleVector (reIdx i a v) = (scaleVector v).map (reIdx i a) := by
  have hadj : adjust (reIdx i a v) = adjust v := rfl
  unfold scaleVector
  rw [hadj]
  simp only [reIdx, bind, Except.bind, pure, Except.pure]
  by_cases h1 : v.lat.allNan = true ∨ v.lt.allNan = true
  · simp only [h1, if_true, Except.map]
  by_cases h2 : v.aacgmMlt.allNan = true
  · simp only [h1, h2, if_true, if_false, Except.map]
  by_cases h3 : v.poleAngle.allNan = true
  · simp only [h1, h2, h3, if_true, if_false, Except.map, Bool.false_eq_true]
  simp only [h1, h2, h3, if_false, Bool.false_eq_true]
  cases adjust v with
  | error e => rfl
  | ok out =>
    simp only
    split
    · rfl
    · split <;> rfl

theorem rotate_other (f : Option (F → F → F → F)) (i : Arr ℤ) (a : Arr F) (v : VD) :
    rotateStep f (reIdx i a v) = (rotateStep f v).map (reIdx i a) := by
  unfold rotateStep
  rw [angle_other]
  simp only [bind, Except.bind, pure, Except.pure]
  cases calcPoleAngle v with
  | error e => rfl
  | ok u =>
    simp only [Except.map]
    have hp : (reIdx i a u).poleAngle = u.poleAngle := rfl
    rw [hp]
    split
    · rfl
    · rw [quad_other]
      cases defineQuadrants u with
      | error e => rfl
      | ok x =>
        simp only [Except.map]
        have : pickScale f (reIdx i a x) = reIdx i a (pickScale f x) := by
          unfold pickScale
          have e : (reIdx i a x).scaleFunc = x.scaleFunc := rfl
          rw [e]
          cases x.scaleFunc <;> rfl
        rw [this, scale_other]
        rfl



/-- Local times and corrections of the dual `normal_coord` are those of the OCB, and its latitudes are missing where
those of the OCB all are. -/
theorem dualNormal_pair {D : DualObj} {O E : Rec} (hD : PairOk D O E) (s : DStore) (hs : s.WF D) (fresh : ℕ)
    (pts : List (F × F)) (ow : Bool) :
    ∃ out s' o lats, dualNormal D s fresh pts ow = .ok (out, s') ∧ normalArr (some O) pts = .ok (o, lats) ∧
      out.map (·.2.1) = o.map (·.2.1) ∧ out.map (·.2.2.2) = o.map (·.2.2) ∧ out.map (·.2.2.1) = o.map (·.1) ∧
      out.length = pts.length ∧ o.length = pts.length ∧ ((∀ x ∈ o, x.1 = none) → ∀ x ∈ out, x.1 = none) ∧
      ((∀ p ∈ pts, wrongHem O.hem p.1 = false) → lats = pts.map (·.1)) := by
  unfold dualNormal
  rw [if_neg (by have := hD.sel.pos; have := hD.sel.lt; omega), selRec_sel hD.sel]
  simp only [bind, Except.bind]
  by_cases hex : ∃ p ∈ pts, ∃ lat, p.1 = some lat ∧ InHem O.hem lat
  · obtain ⟨f, hf, hmap⟩ := normalArr_map O hD.oValid
    rw [hmap pts hex]
    have hlats : (∀ p ∈ pts, wrongHem O.hem p.1 = false) →
        (pts.map fun p => if wrongHem O.hem p.1 then none else p.1) = pts.map (·.1) := by
      intro h
      refine List.map_congr_left fun p hp => ?_
      rw [h p hp]
      rfl
    simp only []
    by_cases hall : ((pts.map f).all fun o => o.1.isNone) = true
    · rw [if_pos hall]
      refine ⟨_, s, _, _, rfl, rfl, ?_, ?_, ?_, by simp, by simp, ?_, hlats⟩
      · simp [List.map_map, Function.comp]
      · simp [List.map_map, Function.comp]
      · simp [List.map_map, Function.comp]
      · intro h x hx
        obtain ⟨y, hy, rfl⟩ := List.mem_map.1 hx
        exact h y hy
    · rw [if_neg hall]
      obtain ⟨s', b1, -⟩ := boundStep_out hD.sel hD.oDaily hD.eDaily
        { s with heap := Function.update s.heap fresh (pts.map (·.2)) } ⟨hs.oWF, hs.eWF, hs.oPaired, hs.ePaired⟩ fresh ow
      simp only [Function.update_self] at b1
      rw [b1]
      simp only [pure, Except.pure]
      refine ⟨_, s', _, _, rfl, rfl, ?_, ?_, ?_, ?_, by simp, ?_, hlats⟩
      · simp only [List.map_map, List.zip_map', Function.comp_def]
      · simp only [List.map_map, List.zip_map', Function.comp_def]
      · simp only [List.map_map, List.zip_map', Function.comp_def]
      · simp only [List.map_map, List.zip_map', List.length_map]
      · intro h
        exfalso
        apply hall
        rw [List.all_eq_true]
        intro x hx
        rw [h x hx]
        rfl
  · push Not at hex
    obtain ⟨out, lats, h1, rfl⟩ := normalArr_nan O pts hex
    rw [h1]
    simp only []
    rw [if_pos (by simp)]
    refine ⟨_, s, _, _, rfl, rfl, by simp, by simp, by simp, by simp, by simp, by simp, fun h => ?_⟩
    cases pts with
    | nil => unfold normalArr at h1; simp [mapE] at h1; exact h1
    | cons p ps =>
      obtain ⟨lat, e1, e2⟩ := (wrongHem_iff _ _).1 (h p (by simp))
      exact absurd e2 (hex p (by simp) lat e1)

/-- What the object holds for the call: latitudes and local times in arrays of one length, or one of each. -/
inductive Locs (v : VD) : List (F × F) → Prop
  | single (a c : F) (ha : v.lat = .one a) (hc : v.lt = .one c) : Locs v [(a, c)]
  | array (a c : List F) (hl : a.length = c.length) (ha : v.lat = .many a) (hc : v.lt = .many c) : Locs v (a.zip c)

/-- `normal_coord` of the dual boundary and of its OCB. -/
theorem normal_pair {D D' : DualObj} {O E : Rec} {k : ℤ} (hsel : selectPair D k = .ok D') (hD : PairOk D' O E) (s : DStore)
    (hs : s.WF D') (fresh : ℕ) {v : VD} {pts : List (F × F)} (hv : Locs v pts) (hin : ∀ p ∈ pts, wrongHem O.hem p.1 = false) :
    ∃ A A' M R, normalDual D s fresh k v.lat v.lt = .ok (v.lat, A, M, R) ∧
      SmagOut.normalOf D'.ocbRecs D'.ocbRecInd v.lat v.lt = .ok (v.lat, A', M, R) ∧
      (A'.allNan = true → A.allNan = true) := by
  obtain ⟨out, s', o, lats, h1, h2, h3, h4, -, h5, h6, h7, h8⟩ := dualNormal_pair hD s hs fresh pts false
  have h8 := h8 hin
  unfold normalDual
  rw [hsel]
  simp only [bind, Except.bind, pure, Except.pure]
  unfold SmagOut.normalOf
  rw [selRec_sel hD.sel]
  cases hv with
  | single a c ha hc =>
    rw [ha, hc]
    obtain ⟨x, rfl⟩ := List.length_eq_one_iff.1 h5
    obtain ⟨y, rfl⟩ := List.length_eq_one_iff.1 h6
    simp only [List.map_cons, List.map_nil, List.cons.injEq, and_true] at h3 h4 h8
    refine ⟨.one x.1, .one y.1, .one x.2.1, .one x.2.2.2, ?_, ?_, ?_⟩
    · simp only [h1]; rfl
    · simp only [h2, h8]
      rw [h3, h4]
      rfl
    · intro h
      have : y.1 = none := by
        simpa [Arr.allNan, Arr.entries] using h
      have := h7 (by simp [this]) x (by simp)
      simp [Arr.allNan, Arr.entries, this]
  | array a c hl ha hc =>
    rw [ha, hc]
    refine ⟨.many (out.map (·.1)), .many (o.map (·.1)), .many (out.map (·.2.1)), .many (out.map (·.2.2.2)), ?_, ?_, ?_⟩
    · simp only [h1]
    · simp only [h2, h8, bind, Except.bind, pure, Except.pure]
      rw [List.map_fst_zip (by omega), h3, h4]
    · intro h
      have : ∀ y ∈ o, y.1 = none := by
        simpa [Arr.allNan, Arr.entries] using h
      have := h7 this
      simpa [Arr.allNan, Arr.entries] using this



theorem selectPair_ok {D D' : DualObj} {k : ℤ} (h : selectPair D k = .ok D') (h0 : 0 ≤ D'.recInd)
    (h1 : D'.recInd < D'.records) : D'.ocbRecs = D.ocbRecs ∧ D'.ocbLat = D.ocbLat ∧ D'.eabLat = D.eabLat ∧ D'.recInd = k ∧
      D'.ocbInd = D.ocbInd ∧ pyIdx D.ocbInd k = .ok D'.ocbRecInd := by
  unfold selectPair at h
  split_ifs at h with c1 c2
  · cases h
    exact absurd h0 (not_le.2 c1)
  · cases h
    exact absurd h1 (not_lt.2 c2)
  · simp only [bind, Except.bind, pure, Except.pure] at h
    cases ho : pyIdx D.ocbInd k with
    | error e => rw [ho] at h; cases h
    | ok o =>
      rw [ho] at h
      simp only at h
      cases he : pyIdx D.eabInd k with
      | error e => rw [he] at h; cases h
      | ok e =>
        rw [he] at h
        cases h
        exact ⟨rfl, rfl, rfl, rfl, rfl, rfl⟩

/-- C22: the setter moves the members of the object as `setRec` says, whatever integer is assigned, and changes nothing else;
up to the number of pairs the cursors are in step. -/
theorem C22_members (D : DualObj) (p : Cycle.Pairs) (ho : p.ocbInd = D.ocbInd) (he : p.eabInd = D.eabInd)
    (ht : p.dtime.length = D.ocbInd.length) (k : ℤ) :
    selectPair D k = (Cycle.setRec p D.ocbRecs.length D.eabRecs.length k).map
        (fun c => { D with recInd := c.ind, ocbRecInd := c.ocb, eabRecInd := c.eab }) ∧
    (D.eabInd.length = D.ocbInd.length → k ≤ D.records → ∃ D', selectPair D k = .ok D' ∧ D'.recInd = k ∧
      Cycle.InStep p D.ocbRecs.length D.eabRecs.length ⟨D'.recInd, D'.ocbRecInd, D'.eabRecInd⟩) := by
  have e : selectPair D k = (Cycle.setRec p D.ocbRecs.length D.eabRecs.length k).map
      (fun c => { D with recInd := c.ind, ocbRecInd := c.ocb, eabRecInd := c.eab }) := by
    unfold selectPair Cycle.setRec Cycle.Pairs.records DualObj.records
    rw [ho, he, ht]
    split_ifs
    · rfl
    · rfl
    · cases h1 : pyIdx D.ocbInd k <;> cases h2 : pyIdx D.eabInd k <;> rfl
  refine ⟨e, fun hl hk => ?_⟩
  obtain ⟨c, c1, c2, c3⟩ := Cycle.C22_set_in_step p D.ocbRecs.length D.eabRecs.length k (by rw [ho, ht]) (by rw [he, ht, hl])
    (by rw [ht]; exact hk)
  rw [e, c1]
  exact ⟨_, rfl, c2, c3⟩

/-- The pole of the circle and the radii are found for the record of the pair. -/
theorem pole_other (D : DualObj) (s : DStore) (fresh : ℕ) (hem hem' : ℤ) (times times' : List Tod) (cursor k j : ℤ)
    (hj : pyIdx D.ocbInd k = .ok j) (a : Arr F) (v : VD) (hv : v.ocbInd = .one k) :
    poleStep (ocbBnd D hem' times' cursor) (reIdx (.one j) a v)
      = (poleStep (dualBnd D s fresh hem times) v).map (reIdx (.one j) a) := by
  have h1 : circleInd (dualBnd D s fresh hem times) v = .ok (.one j) := by
    unfold circleInd
    simp only [dualBnd, hv]
    show (pyIdx D.ocbInd k).map Arr.one = _
    rw [hj]
    rfl
  have h2 : circleInd (ocbBnd D hem' times' cursor) (reIdx (.one j) a v) = .ok (.one j) := rfl
  unfold poleStep
  rw [h1, h2]
  simp only [bind, Except.bind, pure, Except.pure, dualBnd, ocbBnd]
  have e : (reIdx (.one j) a v).rCorr = v.rCorr := rfl
  rw [e]
  cases idxArr (D.ocbRecs.map Rec.r) (.one j) with
  | error e => rfl
  | ok r =>
    simp only
    cases r.zip v.rCorr with
    | error e => rfl
    | ok rr =>
      simp only
      cases idxArr (D.ocbRecs.map Rec.phiCent) (.one j) with
      | error e => rfl
      | ok phi =>
        simp only
        cases idxArr (D.ocbRecs.map Rec.rCent) (.one j) with
        | error e => rfl
        | ok rc =>
          simp only
          cases poleArr phi rc with
          | error e => rfl
          | ok p => rfl

/-- C169: `set_ocb` with a `DualBoundary` leaves the same object as `set_ocb` with its OCB alone at the record of the
pair (so the same vectors, magnitudes, angles, quadrants, radii, local times), except for the index and the boundary
latitudes.  For vectors of the hemisphere whose dual coordinates can be found, at single locations and arrays. -/
theorem C169_as_ocb_partial (conv : VD → Arr Tod → ℤ → Except PyErr VD) (D D' : DualObj) (O E : Rec) (k : ℤ)
    (hsel : selectPair D k = .ok D') (hD : PairOk D' O E) (s : DStore) (hs : s.WF D') (fresh : ℕ) (hem hem' : ℤ)
    (times times' : List Tod) (t : Tod) (cursor : ℤ) (ht : pyIdx times' cursor = .ok t)
    (f : Option (F → F → F → F)) (v w : VD) (c : ℤ) (pts : List (F × F)) (hv : Locs v pts)
    (hin : ∀ p ∈ pts, ∃ x, p.1 = some x ∧ InHem D'.hem x) (hk : v.ocbInd = .one k) (hm : v.vectCoord = "magnetic")
    (hgap : coordsMissing v = true)
    (h : setOcb conv (dualBnd D s fresh hem times) f v = .ok (w, c)) (hw : coordsMissing w = false) :
    ∃ A, setOcb conv (ocbBnd D hem' times' cursor) f { v with ocbInd := .one D'.ocbRecInd }
        = .ok ({ w with ocbInd := .one D'.ocbRecInd, ocbLat := A }, D'.ocbRecInd) ∧ c = k := by
  obtain ⟨q1, q2, -, q3, -, q5⟩ := selectPair_ok hsel hD.sel.pos hD.sel.lt
  obtain ⟨A, A', M, R, n1, n2, n3⟩ := normal_pair hsel hD s hs fresh hv fun p hp => by
    obtain ⟨x, hx, hx'⟩ := hin p hp
    exact (wrongHem_iff _ _).2 ⟨x, hx, by rw [hD.oHem]; exact hx'⟩
  rw [q1] at n2
  have hfill : fillCoords (dualBnd D s fresh hem times) v = .ok ({ v with ocbLat := A, ocbMlt := M, rCorr := R }, k) := by
    unfold fillCoords
    rw [if_pos hgap, hk]
    simp only [dualBnd, n1, bind, Except.bind, pure, Except.pure, spread_one]
  have hfill' : fillCoords (ocbBnd D hem' times' cursor) { v with ocbInd := .one D'.ocbRecInd }
      = .ok ({ v with ocbInd := .one D'.ocbRecInd, ocbLat := A', ocbMlt := M, rCorr := R }, D'.ocbRecInd) := by
    unfold fillCoords
    rw [if_pos (show coordsMissing { v with ocbInd := .one D'.ocbRecInd } = true from hgap)]
    simp only [ocbBnd, n2, bind, Except.bind, pure, Except.pure, spread_one]
  unfold setOcb at h
  simp only [bind, Except.bind, pure, Except.pure, hm, ne_eq, not_true_eq_false, if_false] at h
  split at h
  · cases h
  simp only [hfill] at h
  split_ifs at h with hmiss
  · cases h
    rw [hmiss] at hw
    cases hw
  · set v1 : VD := { v with ocbLat := A, ocbMlt := M, rCorr := R } with hv1
    have hA' : coordsMissing { v with ocbInd := .one D'.ocbRecInd, ocbLat := A', ocbMlt := M, rCorr := R } = false := by
      unfold coordsMissing at hmiss ⊢
      simp only [hv1, Bool.or_eq_true, not_or, Bool.not_eq_true] at hmiss
      obtain ⟨⟨m1, m2⟩, m3⟩ := hmiss
      simp only [Bool.or_eq_false_iff]
      refine ⟨⟨?_, m2⟩, m3⟩
      by_contra hc
      rw [Bool.not_eq_false] at hc
      rw [n3 hc] at m1
      cases m1
    have hp := pole_other D s fresh hem hem' times times' cursor k D'.ocbRecInd q5 A' v1 hk
    have he : reIdx (.one D'.ocbRecInd) A' v1
        = { v with ocbInd := .one D'.ocbRecInd, ocbLat := A', ocbMlt := M, rCorr := R } := rfl
    rw [he] at hp
    refine ⟨A', ?_⟩
    cases hps : poleStep (dualBnd D s fresh hem times) v1 with
    | error e => rw [hps] at h; cases h
    | ok v2 =>
      rw [hps] at h hp
      simp only at h
      have hr := rotate_other f (.one D'.ocbRecInd) A' v2
      cases hrs : rotateStep f v2 with
      | error e => rw [hrs] at h; cases h
      | ok v3 =>
        rw [hrs] at h hr
        cases h
        refine ⟨?_, rfl⟩
        unfold setOcb
        have htt : timesOf (ocbBnd D hem' times' cursor) { v with ocbInd := .one D'.ocbRecInd } = .ok (.one t) := by
          unfold timesOf
          simp only [ocbBnd, ht]
          rfl
        rw [htt]
        simp only [bind, Except.bind, pure, Except.pure]
        rw [if_neg (by simpa using hm)]
        simp only [hfill', hA', hp, Except.map, hr, Bool.false_eq_true, if_false]
        rfl

end Ocb.Scale
