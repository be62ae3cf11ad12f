import Verif.Model.VectSet
import Verif.Props.SetOcbMore

/-!
# Properties of repeated calls of `set_ocb` and of assignments between them (C140-C142)
-/

set_option autoImplicit false

namespace Ocb.Scale

open Ocb.Time Ocb.Coord Ocb.Vec

/-! ## What each part of `set_ocb` reads and writes -/

theorem poleStep_local {b : Bnd} {u v v' : VD} (h : poleStep b v = .ok v') (h1 : u.ocbInd = v.ocbInd)
    (h2 : u.rCorr = v.rCorr) :
    poleStep b u = .ok { u with
      unscaledR := v'.unscaledR, scaledR := v'.scaledR, aacgmMlt := v'.aacgmMlt, aacgmLat := v'.aacgmLat } := by
  unfold poleStep circleInd at h ⊢
  rw [h1, h2]
  simp only [bind, Except.bind, pure, Except.pure] at h ⊢
  repeat' split at h
  all_goals first
    | contradiction
    | (cases h; simp only [*])

theorem spread_twice {α : Type*} (d : Arr ℤ) (x : Arr α) : spread d (spread d x) = spread d x := by
  cases x with
  | many l => rfl
  | one a => cases d <;> rfl

theorem calcPoleAngle_place {v v' : VD} (h : calcPoleAngle v = .ok v') :
    v' = { v with lt := spread v.datInd v.lt, lat := spread v.datInd v.lat, poleAngle := v'.poleAngle } := by
  unfold calcPoleAngle at h
  simp only [bind, Except.bind, pure, Except.pure] at h
  repeat' split at h
  all_goals first
    | contradiction
    | (cases h; rfl)

theorem calcPoleAngle_local {u v v' : VD} (h : calcPoleAngle v = .ok v') (h1 : u.locCoord = v.locCoord)
    (h3 : spread u.datInd u.lt = v'.lt) (h4 : spread u.datInd u.lat = v'.lat)
    (h5 : u.aacgmMlt = v.aacgmMlt) (h6 : u.aacgmLat = v.aacgmLat) :
    calcPoleAngle u = .ok { u with lt := v'.lt, lat := v'.lat, poleAngle := v'.poleAngle } := by
  have hp := calcPoleAngle_place h
  have e1 : v'.lt = spread v.datInd v.lt := by rw [hp]
  have e2 : v'.lat = spread v.datInd v.lat := by rw [hp]
  rw [e1] at h3
  rw [e2] at h4
  rw [e1, e2]
  unfold calcPoleAngle at h ⊢
  simp only [bind, Except.bind, pure, Except.pure] at h ⊢
  rw [h1, h3, h4, h5, h6]
  repeat' split at h
  all_goals first
    | contradiction
    | (cases h; simp only [*, if_false, Bool.false_eq_true, ne_eq, not_true_eq_false, not_false_eq_true])

theorem defineQuadrants_local {u v v' : VD} (h : defineQuadrants v = .ok v') (h1 : u.locCoord = v.locCoord)
    (h2 : u.vectCoord = v.vectCoord) (h3 : u.aacgmMlt = v.aacgmMlt) (h4 : u.lt = v.lt)
    (h5 : u.poleAngle = v.poleAngle) (h6 : u.vectN = v.vectN) (h7 : u.vectE = v.vectE) :
    defineQuadrants u = .ok { u with ocbQuad := v'.ocbQuad, vecQuad := v'.vecQuad } := by
  unfold defineQuadrants at h ⊢
  rw [h1, h2, h3, h4, h5, h6, h7]
  simp only [bind, Except.bind, pure, Except.pure] at h ⊢
  repeat' split at h
  all_goals first
    | contradiction
    | (cases h; simp only [*, if_false, Bool.false_eq_true, ne_eq, not_true_eq_false, not_false_eq_true, or_self])

theorem scaleVector_local {u v v' : VD} (h : scaleVector v = .ok v') (h1 : u.lat = v.lat) (h2 : u.lt = v.lt)
    (h3 : u.aacgmMlt = v.aacgmMlt) (h4 : u.aacgmLat = v.aacgmLat) (h5 : u.poleAngle = v.poleAngle)
    (h6 : u.ocbQuad = v.ocbQuad) (h7 : u.vecQuad = v.vecQuad) (h8 : u.vectN = v.vectN) (h9 : u.vectE = v.vectE)
    (h10 : u.vectZ = v.vectZ) (h11 : u.scaleFunc = v.scaleFunc) (h12 : u.unscaledR = v.unscaledR)
    (h13 : u.scaledR = v.scaledR) :
    scaleVector u = .ok { u with ocbN := v'.ocbN, ocbE := v'.ocbE, ocbZ := v'.ocbZ, ocbMag := v'.ocbMag } := by
  have ha : adjust u = adjust v := by unfold adjust; rw [h1, h2, h3, h4, h5, h6, h7, h8, h9, h10]
  unfold scaleVector at h ⊢
  rw [ha, h1, h2, h3, h5, h8, h9, h10, h11, h12, h13]
  split_ifs at h ⊢
  cases hv : adjust v with
  | error e => rw [hv] at h; cases h
  | ok out =>
    rw [hv] at h
    simp only [bind, Except.bind, pure, Except.pure] at h ⊢
    split at h
    · contradiction
    · split at h
      · contradiction
      · cases h
        rfl

/-- The results of `set_ocb` other than the boundary coordinates. -/
structure Res where
  ocbN : Arr F
  ocbE : Arr F
  ocbZ : Arr F
  ocbMag : Arr F
  ocbQuad : Arr ℤ
  vecQuad : Arr ℤ
  poleAngle : Arr F
  aacgmLat : Arr F
  aacgmMlt : Arr F
  unscaledR : Option (Arr F)
  scaledR : Option (Arr F)

/-- The object with other results. -/
def withRes (v : VD) (r : Res) : VD :=
  { v with
    ocbN := r.ocbN, ocbE := r.ocbE, ocbZ := r.ocbZ, ocbMag := r.ocbMag, ocbQuad := r.ocbQuad, vecQuad := r.vecQuad
    poleAngle := r.poleAngle, aacgmLat := r.aacgmLat, aacgmMlt := r.aacgmMlt, unscaledR := r.unscaledR
    scaledR := r.scaledR }

/-- The coordinates that one turn of the loop over the boundary indices asks for. -/
noncomputable def turnOut (b : Bnd) (v : VD) (i : ℕ) (k : ℤ) : Except PyErr (Arr F × Arr F × Arr F × Arr F) :=
  if v.ocbInd.shape = v.datInd.shape then
    match v.lat.entries[i]?, v.lt.entries[i]?, v.height.entries[i]? with
    | some la, some lt, some h => (b.normal k (.one la) (.one lt) v.locCoord (.one h)).map fun o => (v.lat, o.2)
    | _, _, _ => .error .indexError
  else b.normal k v.lat v.lt v.locCoord v.height

/-- One entry of an array replaced. -/
def putAt (i : ℕ) (x : Arr F) (y : F) : Arr F :=
  match x with
  | .one a => .one a
  | .many l => .many (l.set i y)

theorem normalLoop_cons (b : Bnd) (v : VD) (i : ℕ) (k : ℤ) (ks : List ℤ) :
    normalLoop b v i (k :: ks) =
      match turnOut b v i k with
      | .error e => .error e
      | .ok o =>
        match single o.2.1 with
        | .error e => .error e
        | .ok la =>
          match single o.2.2.1 with
          | .error e => .error e
          | .ok ml =>
            match single o.2.2.2 with
            | .error e => .error e
            | .ok rc =>
              normalLoop b { v with
                lat := o.1, ocbLat := putAt i v.ocbLat la, ocbMlt := putAt i v.ocbMlt ml
                rCorr := putAt i v.rCorr rc } (i + 1) ks := by
  have e : normalLoop b v i (k :: ks) = Except.bind (turnOut b v i k) fun o => Except.bind (single o.2.1) fun la =>
      Except.bind (single o.2.2.1) fun ml => Except.bind (single o.2.2.2) fun rc => normalLoop b { v with
        lat := o.1, ocbLat := putAt i v.ocbLat la, ocbMlt := putAt i v.ocbMlt ml
        rCorr := putAt i v.rCorr rc } (i + 1) ks := by
    rw [normalLoop]
    rfl
  rw [e]
  cases turnOut b v i k with
  | error e => rfl
  | ok o =>
    show Except.bind (single o.2.1) _ = _
    simp only
    cases single o.2.1 with
    | error e => rfl
    | ok la =>
      show Except.bind (single o.2.2.1) _ = _
      simp only
      cases single o.2.2.1 with
      | error e => rfl
      | ok ml =>
        show Except.bind (single o.2.2.2) _ = _
        simp only
        cases single o.2.2.2 <;> rfl

theorem normalLoop_res (b : Bnd) (r : Res) (l : List ℤ) : ∀ (v : VD) (i : ℕ),
    normalLoop b (withRes v r) i l = (normalLoop b v i l).map fun w => withRes w r := by
  induction l with
  | nil => intro v i; rfl
  | cons k ks ih =>
    intro v i
    rw [normalLoop_cons, normalLoop_cons]
    have e : turnOut b (withRes v r) i k = turnOut b v i k := rfl
    rw [e]
    cases turnOut b v i k with
    | error e => rfl
    | ok o =>
      simp only
      cases single o.2.1 with
      | error e => rfl
      | ok la =>
        simp only
        cases single o.2.2.1 with
        | error e => rfl
        | ok ml =>
          simp only
          cases single o.2.2.2 with
          | error e => rfl
          | ok rc =>
            simp only
            exact ih { v with
              lat := o.1, ocbLat := putAt i v.ocbLat la, ocbMlt := putAt i v.ocbMlt ml
              rCorr := putAt i v.rCorr rc } (i + 1)

theorem fillCoords_res (b : Bnd) (r : Res) (v : VD) :
    fillCoords b (withRes v r) = (fillCoords b v).map fun x => (withRes x.1 r, x.2) := by
  unfold fillCoords
  show (if coordsMissing v = true then _ else _) = _
  split_ifs
  · show (match v.ocbInd with | .one k => _ | .many ks => _ : Except PyErr (VD × ℤ)) = _
    cases hv : v.ocbInd with
    | one k =>
      simp only [bind, Except.bind, withRes, hv]
      cases b.normal k v.lat v.lt v.locCoord v.height <;> rfl
    | many ks =>
      simp only [bind, Except.bind, normalLoop_res]
      cases normalLoop b v 0 ks <;> rfl
  · rfl

theorem normalLoop_only (b : Bnd) (l : List ℤ) : ∀ (v v' : VD) (i : ℕ), normalLoop b v i l = .ok v' →
    ∃ la a m r, v' = { v with lat := la, ocbLat := a, ocbMlt := m, rCorr := r } := by
  induction l with
  | nil => intro v v' i h; cases h; exact ⟨_, _, _, _, rfl⟩
  | cons k ks ih =>
    intro v v' i h
    rw [normalLoop_cons] at h
    repeat' split at h
    all_goals first
      | contradiction
      | (obtain ⟨_, _, _, _, rfl⟩ := ih _ _ _ h; exact ⟨_, _, _, _, rfl⟩)

theorem fillCoords_only {b : Bnd} {v v' : VD} {c : ℤ} (h : fillCoords b v = .ok (v', c)) :
    ∃ la a m r, v' = { v with lat := la, ocbLat := a, ocbMlt := m, rCorr := r } := by
  unfold fillCoords at h
  split_ifs at h
  · simp only [bind, Except.bind, pure, Except.pure] at h
    split at h
    · split at h
      · contradiction
      · cases h; exact ⟨_, _, _, _, rfl⟩
    · split at h
      · contradiction
      · rename_i hl
        cases h; exact normalLoop_only _ _ _ _ _ hl
  · cases h; exact ⟨_, _, _, _, rfl⟩

/-- The two ways in which `rotateStep` ends. -/
theorem rotateStep_inv {f : Option (F → F → F → F)} {v w : VD} (h : rotateStep f v = .ok w) :
    (w.poleAngle.allNan = true ∧ calcPoleAngle v = .ok w) ∨
    ∃ v1 v2, calcPoleAngle v = .ok v1 ∧ v1.poleAngle.allNan = false ∧ defineQuadrants v1 = .ok v2 ∧
      scaleVector (pickScale f v2) = .ok w := by
  unfold rotateStep at h
  simp only [bind, Except.bind, pure, Except.pure] at h
  split at h
  · contradiction
  · rename_i v1 h1
    split_ifs at h with hc
    · cases h; exact .inl ⟨hc, h1⟩
    · split at h
      · contradiction
      · rename_i v2 h2
        exact .inr ⟨v1, v2, h1, by simpa using hc, h2, h⟩

/-- The parts of a call of `set_ocb` on magnetic vectors that finds the boundary coordinates. -/
theorem setOcb_inv {conv : VD → Arr Tod → ℤ → Except PyErr VD} {b : Bnd} {f : Option (F → F → F → F)} {v w : VD} {c : ℤ}
    (hm : v.vectCoord = "magnetic") (h : setOcb conv b f v = .ok (w, c)) :
    (∃ t, timesOf b v = .ok t) ∧ ∃ v1, fillCoords b v = .ok (v1, c) ∧
      ((coordsMissing v1 = true ∧ w = v1) ∨
        (coordsMissing v1 = false ∧ ∃ v2, poleStep b v1 = .ok v2 ∧ rotateStep f v2 = .ok w)) := by
  unfold setOcb at h
  simp only [bind, Except.bind, pure, Except.pure, hm, ne_eq, not_true_eq_false, if_false] at h
  split at h
  · contradiction
  · rename_i t ht
    refine ⟨⟨t, ht⟩, ?_⟩
    split at h
    · contradiction
    · rename_i x hx
      obtain ⟨v1, c1⟩ := x
      simp only at h
      split_ifs at h with hc
      · cases h; exact ⟨_, hx, .inl ⟨hc, rfl⟩⟩
      · split at h
        · contradiction
        · rename_i v2 h2
          split at h
          · contradiction
          · rename_i v3 h3
            cases h
            exact ⟨_, hx, .inr ⟨by simpa using hc, v2, h2, h3⟩⟩

/-- Put together again. -/
theorem setOcb_intro {conv : VD → Arr Tod → ℤ → Except PyErr VD} {b : Bnd} {f : Option (F → F → F → F)}
    {v v1 v2 w : VD} {c : ℤ} {t : Arr Tod} (hm : v.vectCoord = "magnetic") (ht : timesOf b v = .ok t)
    (h1 : fillCoords b v = .ok (v1, c)) (hc : coordsMissing v1 = false) (h2 : poleStep b v1 = .ok v2)
    (h3 : rotateStep f v2 = .ok w) : setOcb conv b f v = .ok (w, c) := by
  unfold setOcb
  simp only [bind, Except.bind, pure, Except.pure, hm, ne_eq, not_true_eq_false, if_false, ht, h1, hc,
    Bool.false_eq_true, h2, h3]

theorem rotateStep_intro {f : Option (F → F → F → F)} {v v1 v2 w : VD} (h1 : calcPoleAngle v = .ok v1)
    (hc : v1.poleAngle.allNan = false) (h2 : defineQuadrants v1 = .ok v2)
    (h3 : scaleVector (pickScale f v2) = .ok w) : rotateStep f v = .ok w := by
  unfold rotateStep
  simp only [bind, Except.bind, pure, Except.pure, h1, hc, Bool.false_eq_true, if_false, h2, h3]

theorem rotateStep_nan {f : Option (F → F → F → F)} {v v1 : VD} (h1 : calcPoleAngle v = .ok v1)
    (hc : v1.poleAngle.allNan = true) : rotateStep f v = .ok v1 := by
  unfold rotateStep
  simp only [bind, Except.bind, pure, Except.pure, h1, hc, if_true]

/-! ## C140 -/

/-- What a call that got as far as a pole angle wrote, step by step. -/
theorem steps_inv {b : Bnd} {f : Option (F → F → F → F)} {v1 v2 w : VD} (h2 : poleStep b v1 = .ok v2)
    (h3 : rotateStep f v2 = .ok w) :
    ∃ a1 a2 a3 a4 a5,
      poleStep b v1 = .ok { v1 with unscaledR := a1, scaledR := a2, aacgmMlt := a3, aacgmLat := a4 } ∧
      calcPoleAngle { v1 with unscaledR := a1, scaledR := a2, aacgmMlt := a3, aacgmLat := a4 } =
        .ok { v1 with
          unscaledR := a1, scaledR := a2, aacgmMlt := a3, aacgmLat := a4, poleAngle := a5
          lt := spread v1.datInd v1.lt, lat := spread v1.datInd v1.lat } ∧
      ((a5.allNan = true ∧ w = { v1 with
          unscaledR := a1, scaledR := a2, aacgmMlt := a3, aacgmLat := a4, poleAngle := a5
          lt := spread v1.datInd v1.lt, lat := spread v1.datInd v1.lat }) ∨
        (a5.allNan = false ∧ ∃ a6 a7 n e z m g,
          (∀ u : VD, u.scaleFunc = v1.scaleFunc ∨ u.scaleFunc = g → pickScale f u = { u with scaleFunc := g }) ∧
          defineQuadrants { v1 with
            unscaledR := a1, scaledR := a2, aacgmMlt := a3, aacgmLat := a4, poleAngle := a5
            lt := spread v1.datInd v1.lt, lat := spread v1.datInd v1.lat } =
            .ok { v1 with
              unscaledR := a1, scaledR := a2, aacgmMlt := a3, aacgmLat := a4, poleAngle := a5
              lt := spread v1.datInd v1.lt, lat := spread v1.datInd v1.lat, ocbQuad := a6, vecQuad := a7 } ∧
          scaleVector { v1 with
              unscaledR := a1, scaledR := a2, aacgmMlt := a3, aacgmLat := a4, poleAngle := a5
              lt := spread v1.datInd v1.lt, lat := spread v1.datInd v1.lat, ocbQuad := a6, vecQuad := a7
              scaleFunc := g } =
            .ok { v1 with
              unscaledR := a1, scaledR := a2, aacgmMlt := a3, aacgmLat := a4, poleAngle := a5
              lt := spread v1.datInd v1.lt, lat := spread v1.datInd v1.lat, ocbQuad := a6, vecQuad := a7
              scaleFunc := g, ocbN := n, ocbE := e, ocbZ := z, ocbMag := m } ∧
          w = { v1 with
              unscaledR := a1, scaledR := a2, aacgmMlt := a3, aacgmLat := a4, poleAngle := a5
              lt := spread v1.datInd v1.lt, lat := spread v1.datInd v1.lat, ocbQuad := a6, vecQuad := a7
              scaleFunc := g, ocbN := n, ocbE := e, ocbZ := z, ocbMag := m })) := by
  obtain ⟨a1, a2, a3, a4, rfl⟩ : ∃ a1 a2 a3 a4, v2 = { v1 with
      unscaledR := a1, scaledR := a2, aacgmMlt := a3, aacgmLat := a4 } := by
    have e2 := poleStep_local h2 rfl rfl
    rw [h2] at e2
    exact ⟨_, _, _, _, Except.ok.inj e2⟩
  rcases rotateStep_inv h3 with ⟨h4, h5⟩ | ⟨v3, v4, h4, h5, h6, h7⟩
  · obtain ⟨a5, rfl⟩ : ∃ a5, w = { v1 with
        unscaledR := a1, scaledR := a2, aacgmMlt := a3, aacgmLat := a4, poleAngle := a5
        lt := spread v1.datInd v1.lt, lat := spread v1.datInd v1.lat } :=
      ⟨_, calcPoleAngle_place h5⟩
    exact ⟨a1, a2, a3, a4, a5, h2, h5, .inl ⟨h4, rfl⟩⟩
  obtain ⟨a5, rfl⟩ : ∃ a5, v3 = { v1 with
      unscaledR := a1, scaledR := a2, aacgmMlt := a3, aacgmLat := a4, poleAngle := a5
      lt := spread v1.datInd v1.lt, lat := spread v1.datInd v1.lat } :=
    ⟨_, calcPoleAngle_place h4⟩
  obtain ⟨a6, a7, rfl⟩ : ∃ a6 a7, v4 = { v1 with
      unscaledR := a1, scaledR := a2, aacgmMlt := a3, aacgmLat := a4, poleAngle := a5
      lt := spread v1.datInd v1.lt, lat := spread v1.datInd v1.lat, ocbQuad := a6, vecQuad := a7 } := by
    have e6 := defineQuadrants_local h6 rfl rfl rfl rfl rfl rfl rfl
    rw [h6] at e6
    exact ⟨_, _, Except.ok.inj e6⟩
  obtain ⟨g, hg⟩ : ∃ g, ∀ u : VD, u.scaleFunc = v1.scaleFunc ∨ u.scaleFunc = g →
      pickScale f u = { u with scaleFunc := g } := by
    unfold pickScale
    cases hh : v1.scaleFunc with
    | none =>
      refine ⟨f, fun u hu => ?_⟩
      rcases hu with hu | hu
      · rw [hu]
      · rw [hu]; cases f with
        | none => rfl
        | some f => show u = _; rw [← hu]
    | some g => exact ⟨some g, fun u hu => by rw [or_self_iff.1 hu]; show u = _; rw [← or_self_iff.1 hu]⟩
  rw [hg _ (by exact .inl rfl)] at h7
  have e7 := scaleVector_local h7 rfl rfl rfl rfl rfl rfl rfl rfl rfl rfl rfl rfl rfl
  have e8 := e7
  rw [h7] at e7
  exact ⟨a1, a2, a3, a4, a5, h2, h4, .inr ⟨h5, a6, a7, _, _, _, _, g, hg, h6, e8, Except.ok.inj e7⟩⟩

theorem fill_coord {b : Bnd} {v v' : VD} {c : ℤ} (h : fillCoords b v = .ok (v', c)) (hm : coordsMissing v = false) :
    v' = v ∧ c = b.recInd := by
  unfold fillCoords at h
  rw [hm] at h
  cases h
  exact ⟨rfl, rfl⟩

/-- C140: the results of `set_ocb` do not depend on what an earlier call, or anything else, left in the attributes for
the results: whenever a call gets as far as a pole angle, the same call on an object that differs only in these
attributes ends in the same object. -/
theorem C140_no_leak (conv : VD → Arr Tod → ℤ → Except PyErr VD) (b : Bnd) (f : Option (F → F → F → F)) (v w : VD)
    (c : ℤ) (hm : v.vectCoord = "magnetic") (h : setOcb conv b f v = .ok (w, c)) (hc : ¬ Gap w)
    (ha : ∃ x ∈ w.poleAngle.entries, x ≠ none) (r : Res) :
    setOcb conv b f (withRes v r) = .ok (w, c) := by
  obtain ⟨⟨t, ht⟩, v1, h1, hr⟩ := setOcb_inv hm h
  rcases hr with ⟨h0, rfl⟩ | ⟨h0, v2, h2, h3⟩
  · exact absurd ((gap_iff _).1 h0) hc
  have hf : fillCoords b (withRes v r) = .ok (withRes v1 r, c) := by rw [fillCoords_res, h1]; rfl
  have hN : w.poleAngle.allNan = false := by
    obtain ⟨x, hx, hx'⟩ := ha
    unfold Arr.allNan
    rw [List.all_eq_false]
    exact ⟨x, hx, by simpa using hx'⟩
  obtain ⟨a1, a2, a3, a4, a5, s2, s4, hr⟩ := steps_inv h2 h3
  rcases hr with ⟨h5, rfl⟩ | ⟨h5, a6, a7, n, e, z, m, g, hg, s6, s7, rfl⟩
  · have h5' : a5.allNan = false := hN
    rw [h5] at h5'
    cases h5'
  have t2 := poleStep_local (u := withRes v1 r) s2 rfl rfl
  have t4 := calcPoleAngle_local (u := { withRes v1 r with
    unscaledR := a1, scaledR := a2, aacgmMlt := a3, aacgmLat := a4 }) s4 rfl rfl rfl rfl rfl
  have t6 := defineQuadrants_local (u := { withRes v1 r with
    unscaledR := a1, scaledR := a2, aacgmMlt := a3, aacgmLat := a4, poleAngle := a5
    lt := spread v1.datInd v1.lt, lat := spread v1.datInd v1.lat }) s6 rfl rfl rfl rfl rfl rfl rfl
  have t7 := scaleVector_local (u := { withRes v1 r with
    unscaledR := a1, scaledR := a2, aacgmMlt := a3, aacgmLat := a4, poleAngle := a5
    lt := spread v1.datInd v1.lt, lat := spread v1.datInd v1.lat, ocbQuad := a6, vecQuad := a7
    scaleFunc := g }) s7 rfl rfl rfl rfl rfl rfl rfl rfl rfl rfl rfl rfl rfl
  refine setOcb_intro hm ht hf h0 t2 (rotateStep_intro t4 h5 t6 ?_)
  rw [hg _ (by exact .inl rfl)]
  exact t7

/-- C140: `set_ocb` can be called again: after a call that found the boundary coordinates, the same call with the
cursor on any record ends in the same object and leaves the cursor where it is. -/
theorem C140_repeat (conv : VD → Arr Tod → ℤ → Except PyErr VD) (b : Bnd) (f : Option (F → F → F → F)) (v w : VD)
    (c c' : ℤ) (hm : v.vectCoord = "magnetic") (h : setOcb conv b f v = .ok (w, c)) (hc : ¬ Gap w)
    (hr : ∃ t, pyIdx b.dtime c' = .ok t) :
    setOcb conv { b with recInd := c' } f w = .ok (w, c') := by
  obtain ⟨⟨t, ht⟩, v1, h1, hr⟩ := setOcb_inv hm h
  rcases hr with ⟨h0, rfl⟩ | ⟨h0, v2, h2, h3⟩
  · exact absurd ((gap_iff _).1 h0) hc
  obtain ⟨la, a, ml, rc, rfl⟩ := fillCoords_only h1
  set v1 : VD := { v with lat := la, ocbLat := a, ocbMlt := ml, rCorr := rc } with hv1
  have hk : ∀ u : VD, u.ocbInd = v.ocbInd → u.ocbLat = v1.ocbLat → u.ocbMlt = v1.ocbMlt → u.rCorr = v1.rCorr →
      (∃ t', timesOf { b with recInd := c' } u = .ok t') ∧ coordsMissing u = false ∧
      fillCoords { b with recInd := c' } u = .ok (u, c') := by
    intro u e1 e2 e3 e4
    have hc : coordsMissing u = false := by unfold coordsMissing at h0 ⊢; rw [e2, e3, e4]; exact h0
    refine ⟨?_, hc, ?_⟩
    · unfold timesOf at ht ⊢
      rw [e1]
      cases hi : v.ocbInd with
      | one k => obtain ⟨t', ht'⟩ := hr; exact ⟨.one t', by simp only; rw [ht']; rfl⟩
      | many l => rw [hi] at ht; exact ⟨t, ht⟩
    · unfold fillCoords; rw [hc]; rfl
  obtain ⟨a1, a2, a3, a4, a5, s2, s4, hr⟩ := steps_inv h2 h3
  have t2 : ∀ u : VD, u.ocbInd = v.ocbInd → u.rCorr = v1.rCorr → poleStep { b with recInd := c' } u =
      .ok { u with unscaledR := a1, scaledR := a2, aacgmMlt := a3, aacgmLat := a4 } := by
    intro u e1 e2
    exact poleStep_local (b := b) (u := u) s2 e1 e2
  rcases hr with ⟨h5, hw⟩ | ⟨h5, a6, a7, n, e, z, m, g, hg, s6, s7, hw⟩
  · obtain ⟨⟨t', k1⟩, k2, k3⟩ := hk w (by rw [hw]) (by rw [hw]) (by rw [hw]) (by rw [hw])
    refine setOcb_intro (by rw [hw]; exact hm) k1 k3 k2 (t2 w (by rw [hw]) (by rw [hw])) ?_
    have t4 := calcPoleAngle_local (u := { w with
      unscaledR := a1, scaledR := a2, aacgmMlt := a3, aacgmLat := a4 }) s4 (by rw [hw])
      (by rw [hw]; exact spread_twice _ _) (by rw [hw]; exact spread_twice _ _) rfl rfl
    rw [rotateStep_nan t4 h5]
    rw [hw]
  · obtain ⟨⟨t', k1⟩, k2, k3⟩ := hk w (by rw [hw]) (by rw [hw]) (by rw [hw]) (by rw [hw])
    refine setOcb_intro (by rw [hw]; exact hm) k1 k3 k2 (t2 w (by rw [hw]) (by rw [hw])) ?_
    have t4 := calcPoleAngle_local (u := { w with
      unscaledR := a1, scaledR := a2, aacgmMlt := a3, aacgmLat := a4 }) s4 (by rw [hw])
      (by rw [hw]; exact spread_twice _ _) (by rw [hw]; exact spread_twice _ _) rfl rfl
    have t6 := defineQuadrants_local (u := { w with
      unscaledR := a1, scaledR := a2, aacgmMlt := a3, aacgmLat := a4, poleAngle := a5
      lt := spread v1.datInd v1.lt, lat := spread v1.datInd v1.lat }) s6 (by rw [hw]) (by rw [hw]) rfl rfl rfl
      (by rw [hw]) (by rw [hw])
    refine rotateStep_intro t4 h5 t6 ?_
    rw [hg _ (by exact .inr (by rw [hw]))]
    have t7 := scaleVector_local (u := { w with
      unscaledR := a1, scaledR := a2, aacgmMlt := a3, aacgmLat := a4, poleAngle := a5
      lt := spread v1.datInd v1.lt, lat := spread v1.datInd v1.lat, ocbQuad := a6, vecQuad := a7
      scaleFunc := g }) s7 rfl rfl rfl rfl rfl rfl rfl (by rw [hw]) (by rw [hw]) (by rw [hw]) rfl rfl rfl
    exact t7.trans (by rw [hw])

/-- A call that changes the components found the coordinates and a pole angle. -/
theorem found_of_change {conv : VD → Arr Tod → ℤ → Except PyErr VD} {b : Bnd} {f : Option (F → F → F → F)} {v w : VD} {c : ℤ}
    (hm : v.vectCoord = "magnetic") (hc0 : coordsMissing v = false) (h : setOcb conv b f v = .ok (w, c))
    (hN : w.ocbN ≠ v.ocbN) : ¬ Gap w ∧ ∃ x ∈ w.poleAngle.entries, x ≠ none := by
  obtain ⟨e1, e2, e3⟩ := setOcb_keeps conv b f v w c hm hc0 h
  refine ⟨?_, ?_⟩
  · rw [← gap_iff]
    unfold coordsMissing at hc0 ⊢
    rw [e1, e2, e3, hc0]
    exact Bool.false_ne_true
  · obtain ⟨-, v1, h1, hr⟩ := setOcb_inv hm h
    obtain ⟨rfl, -⟩ := fill_coord h1 hc0
    rcases hr with ⟨h0, -⟩ | ⟨-, v2, h2, h3⟩
    · rw [hc0] at h0; cases h0
    obtain ⟨a1, a2, a3, a4, a5, -, -, hr⟩ := steps_inv h2 h3
    rcases hr with ⟨-, rfl⟩ | ⟨h5, a6, a7, n, e, z, m, g, -, -, -, rfl⟩
    · exact absurd rfl hN
    · unfold Arr.allNan at h5
      rw [List.all_eq_false] at h5
      obtain ⟨x, hx, hx'⟩ := h5
      exact ⟨x, hx, by simpa using hx'⟩

theorem exVD_known : Known exVD 2 exPt := ⟨⟨fun _ => 80, .inr rfl⟩, ⟨fun _ => 2, .inr rfl⟩, .inr rfl⟩

theorem ex_change {w : VD} {f : ℕ → ℝ} (h : Reads w.ocbN 2 fun i => some (f i)) : w.ocbN ≠ exVD.ocbN := by
  rcases h with ⟨x, hx, -⟩ | hn
  · rw [hx]; simp [exVD]
  · rw [hn]
    intro hc
    have := Arr.many.inj hc
    simp [List.range_succ] at this

/-- The hypotheses of both theorems are met, by a call that finds results. -/
theorem exHist (t : Tod) (conv : VD → Arr Tod → ℤ → Except PyErr VD) : ∃ w c, setOcb conv (exBnd t) none exVD = .ok (w, c) ∧
    ¬ Gap w ∧ (∃ x ∈ w.poleAngle.entries, x ≠ none) ∧ w.ocbN ≠ exVD.ocbN := by
  obtain ⟨w, c, u, h, hn, -⟩ := C69_geometry conv (exBnd t) exVD 2 exPt (by norm_num) exVD_holds (exPt_good t) (exRange t)
    (.known exVD_known) (.inr (.inl (by simp [exVD, Arr.shape]))) rfl
  have hN := ex_change hn
  obtain ⟨h1, h2⟩ := found_of_change rfl (exVD_known.there (by norm_num)) h hN
  exact ⟨w, c, h, h1, h2, hN⟩

example (t : Tod) : exVD.vectCoord = "magnetic" ∧ ∃ t', pyIdx (exBnd t).dtime 1 = .ok t' := ⟨rfl, t, rfl⟩

/-! ## C141 -/

/-- C141 is false: after the vector was moved to another place, `set_ocb` still reports the boundary coordinates of the
old place, and turns the components with the radius correction of the old place. -/
theorem C141_location_refuted (conv : VD → Arr Tod → ℤ → Except PyErr VD) (b : Bnd) (f : Option (F → F → F → F))
    (v w : VD) (x y z : Arr F) (r : ℤ) (hm : v.vectCoord = "magnetic") (hc : ¬ Gap v)
    (h : setOcb conv b f (setHeight (setLt (setLat v x) y) z) = .ok (w, r)) :
    w.lat = spread v.datInd x ∧ w.lt = spread v.datInd y ∧
    w.ocbLat = v.ocbLat ∧ w.ocbMlt = v.ocbMlt ∧ w.rCorr = v.rCorr := by
  have hc' : coordsMissing (setHeight (setLt (setLat v x) y) z) = false := not_gap hc
  obtain ⟨-, v1, h1, hr⟩ := setOcb_inv (by exact hm) h
  obtain ⟨rfl, -⟩ := fill_coord h1 hc'
  rcases hr with ⟨h0, -⟩ | ⟨-, v2, h2, h3⟩
  · rw [hc'] at h0; cases h0
  obtain ⟨a1, a2, a3, a4, a5, -, -, hr⟩ := steps_inv h2 h3
  rcases hr with ⟨-, rfl⟩ | ⟨h5, a6, a7, n, e, z, m, g, -, -, -, rfl⟩
  · exact ⟨spread_twice _ _, spread_twice _ _, rfl, rfl, rfl⟩
  · exact ⟨spread_twice _ _, spread_twice _ _, rfl, rfl, rfl⟩

/-- A vector at 60 degrees with boundary coordinates, moved to 75 and 80 degrees: the call succeeds. -/
example (t : Tod) (conv : VD → Arr Tod → ℤ → Except PyErr VD) :
    let v := { exVD with lat := .many [some 60, some 60], lt := .many [some 1, some 2] }
    ¬ Gap v ∧ ∃ w r, setOcb conv (exBnd t) none (setHeight (setLt (setLat v exVD.lat) exVD.lt) exVD.height) = .ok (w, r) := by
  refine ⟨?_, ?_⟩
  · rw [← gap_iff]
    have := exVD_known.there (by norm_num)
    show ¬ coordsMissing exVD = true
    rw [this]; exact Bool.false_ne_true
  · obtain ⟨w, c, h, -⟩ := exHist t conv
    exact ⟨w, c, h⟩

theorem none_gap (v : VD) : Gap (setOcbLat v (.one none)) := by
  refine .inl fun x hx => ?_
  simp only [setOcbLat] at hx
  cases hi : v.ocbInd with
  | one k => rw [hi] at hx; simpa [spread, Arr.entries] using hx
  | many l =>
    rw [hi] at hx
    simp only [spread, Arr.full, Arr.entries] at hx
    exact List.eq_of_mem_replicate hx

/-- C141 as far as it holds, for a single boundary index: if NaN is assigned to `ocb_lat` after the move, the boundary
coordinates are those that `normal_coord` finds for the new place.  Missing: without this assignment the old ones stay
(refuted above). -/
theorem C141_unset_partial (conv : VD → Arr Tod → ℤ → Except PyErr VD) (b : Bnd) (f : Option (F → F → F → F))
    (v w : VD) (x y z : Arr F) (k r : ℤ) (hm : v.vectCoord = "magnetic") (hi : v.ocbInd = .one k)
    (h : setOcb conv b f (setOcbLat (setHeight (setLt (setLat v x) y) z) (.one none)) = .ok (w, r)) :
    r = k ∧ ∃ la, b.normal k (spread v.datInd x) (spread v.datInd y) v.locCoord (spread v.datInd z) =
      .ok (la, w.ocbLat, w.ocbMlt, w.rCorr) := by
  obtain ⟨-, v1, h1, hr⟩ := setOcb_inv (by exact hm) h
  have hw : w.ocbLat = v1.ocbLat ∧ w.ocbMlt = v1.ocbMlt ∧ w.rCorr = v1.rCorr := by
    rcases hr with ⟨-, rfl⟩ | ⟨-, v2, h2, h3⟩
    · exact ⟨rfl, rfl, rfl⟩
    · obtain ⟨a1, a2, a3, a4, a5, -, -, hr⟩ := steps_inv h2 h3
      rcases hr with ⟨-, rfl⟩ | ⟨h5, a6, a7, n, e, z, m, g, -, -, -, rfl⟩
      · exact ⟨rfl, rfl, rfl⟩
      · exact ⟨rfl, rfl, rfl⟩
  unfold fillCoords at h1
  rw [(gap_iff _).2 (none_gap _)] at h1
  have hi' : (setOcbLat (setHeight (setLt (setLat v x) y) z) (.one none)).ocbInd = .one k := hi
  rw [if_pos rfl, hi'] at h1
  simp only [bind, Except.bind, pure, Except.pure] at h1
  split at h1
  · contradiction
  · rename_i o ho
    cases h1
    refine ⟨rfl, o.1, ?_⟩
    have hs : ∀ q : Arr F, spread (.one k) q = q := by intro q; cases q <;> rfl
    rw [hw.1, hw.2.1, hw.2.2]
    simp only [hs]
    exact ho

/-- The entries of the loop over the boundary indices. -/
theorem normalLoop_entries (b : Bnd) (l : List ℤ) : ∀ (v v' : VD) (i : ℕ) (A M R : List F),
    normalLoop b v i l = .ok v' → v.ocbInd.shape = v.datInd.shape → v.ocbLat = .many A → v.ocbMlt = .many M →
    v.rCorr = .many R → A.length = i + l.length → M.length = i + l.length → R.length = i + l.length →
    ∃ A' M' R', v'.ocbLat = .many A' ∧ v'.ocbMlt = .many M' ∧ v'.rCorr = .many R' ∧
      (∀ j, j < i → A'[j]? = A[j]? ∧ M'[j]? = M[j]? ∧ R'[j]? = R[j]?) ∧
      ∀ j k, l[j]? = some k → ∃ o la ml rc, turnOut b v (i + j) k = .ok o ∧ single o.2.1 = .ok la ∧
        single o.2.2.1 = .ok ml ∧ single o.2.2.2 = .ok rc ∧ A'[i + j]? = some la ∧ M'[i + j]? = some ml ∧
        R'[i + j]? = some rc := by
  induction l with
  | nil =>
    intro v v' i A M R h _ h1 h2 h3 _ _ _
    cases h
    exact ⟨A, M, R, h1, h2, h3, fun _ _ => ⟨rfl, rfl, rfl⟩, fun j k hk => by simp at hk⟩
  | cons k0 ks ih =>
    intro v v' i A M R h hs h1 h2 h3 l1 l2 l3
    rw [normalLoop_cons] at h
    split at h
    · contradiction
    rename_i o ho
    split at h
    · contradiction
    rename_i la hla
    split at h
    · contradiction
    rename_i ml hml
    split at h
    · contradiction
    rename_i rc hrc
    have hlat : o.1 = v.lat := by
      unfold turnOut at ho
      rw [if_pos hs] at ho
      split at ho
      · cases hb : b.normal k0 (.one _) (.one _) v.locCoord (.one _) with
        | error e => rw [hb] at ho; cases ho
        | ok q => rw [hb] at ho; cases ho; rfl
      · cases ho
    simp only [List.length_cons] at l1 l2 l3
    obtain ⟨A', M', R', g1, g2, g3, g4, g5⟩ := ih _ v' (i + 1) (A.set i la) (M.set i ml) (R.set i rc) h hs
      (by simp only [h1, putAt]) (by simp only [h2, putAt]) (by simp only [h3, putAt]) (by simp; omega) (by simp; omega)
      (by simp; omega)
    refine ⟨A', M', R', g1, g2, g3, fun j hj => ?_, fun j k hk => ?_⟩
    · obtain ⟨q1, q2, q3⟩ := g4 j (by omega)
      rw [q1, q2, q3, List.getElem?_set_ne (by omega), List.getElem?_set_ne (by omega), List.getElem?_set_ne (by omega)]
      exact ⟨rfl, rfl, rfl⟩
    · cases j with
      | zero =>
        simp only [List.getElem?_cons_zero, Option.some.injEq] at hk
        subst hk
        obtain ⟨q1, q2, q3⟩ := g4 i (by omega)
        refine ⟨o, la, ml, rc, ho, hla, hml, hrc, ?_, ?_, ?_⟩
        · rw [Nat.add_zero, q1, List.getElem?_set_self (by omega)]
        · rw [Nat.add_zero, q2, List.getElem?_set_self (by omega)]
        · rw [Nat.add_zero, q3, List.getElem?_set_self (by omega)]
      | succ j =>
        obtain ⟨o', la', ml', rc', f1, f2, f3, f4, f5, f6, f7⟩ := g5 j k (by simpa using hk)
        rw [show i + 1 + j = i + (j + 1) from by omega] at f1 f5 f6 f7
        refine ⟨o', la', ml', rc', ?_, f2, f3, f4, f5, f6, f7⟩
        rw [← f1]
        unfold turnOut
        simp only [hlat]

/-- C141 as far as it holds, for as many boundary indices as vectors: if NaN is assigned to `ocb_lat` after the move, the
boundary coordinates of each vector are those that `normal_coord` finds with its index for its new place. -/
theorem C141_unset_arrays_partial (conv : VD → Arr Tod → ℤ → Except PyErr VD) (b : Bnd) (f : Option (F → F → F → F))
    (v w : VD) (x y z : List F) (ks ds : List ℤ) (M R : List F) (r : ℤ) (hm : v.vectCoord = "magnetic")
    (hi : v.ocbInd = .many ks) (hd : v.datInd = .many ds) (hl : ds.length = ks.length) (hM : v.ocbMlt = .many M)
    (hR : v.rCorr = .many R) (lM : M.length = ks.length) (lR : R.length = ks.length)
    (h : setOcb conv b f (setOcbLat (setHeight (setLt (setLat v (.many x)) (.many y)) (.many z)) (.one none)) = .ok (w, r)) :
    ∃ A' M' R', w.ocbLat = .many A' ∧ w.ocbMlt = .many M' ∧ w.rCorr = .many R' ∧
      ∀ (j : ℕ) (k : ℤ), ks[j]? = some k → ∃ xj yj zj la ml rc, x[j]? = some xj ∧ y[j]? = some yj ∧ z[j]? = some zj ∧
        (∃ a b' c o, b.normal k (.one xj) (.one yj) v.locCoord (.one zj) = .ok (o, a, b', c) ∧ single a = .ok la ∧
          single b' = .ok ml ∧ single c = .ok rc) ∧
        A'[j]? = some la ∧ M'[j]? = some ml ∧ R'[j]? = some rc := by
  obtain ⟨-, v1, h1, hr⟩ := setOcb_inv (by exact hm) h
  have hw : w.ocbLat = v1.ocbLat ∧ w.ocbMlt = v1.ocbMlt ∧ w.rCorr = v1.rCorr := by
    rcases hr with ⟨-, rfl⟩ | ⟨-, v2, h2, h3⟩
    · exact ⟨rfl, rfl, rfl⟩
    · obtain ⟨a1, a2, a3, a4, a5, -, -, hr⟩ := steps_inv h2 h3
      rcases hr with ⟨-, rfl⟩ | ⟨h5, a6, a7, n, e, z, m, g, -, -, -, rfl⟩
      · exact ⟨rfl, rfl, rfl⟩
      · exact ⟨rfl, rfl, rfl⟩
  unfold fillCoords at h1
  rw [(gap_iff _).2 (none_gap _)] at h1
  set u := setOcbLat (setHeight (setLt (setLat v (.many x)) (.many y)) (.many z)) (.one none) with hu
  have hi' : u.ocbInd = .many ks := hi
  rw [if_pos rfl, hi'] at h1
  simp only [bind, Except.bind, pure, Except.pure] at h1
  split at h1
  · contradiction
  rename_i q hq
  cases h1
  have hlat : u.ocbLat = .many (List.replicate ks.length none) := by
    show spread v.ocbInd (.one none) = _
    rw [hi]; rfl
  have hsh : u.ocbInd.shape = u.datInd.shape := by
    show v.ocbInd.shape = v.datInd.shape
    rw [hi, hd]; simp only [Arr.shape, hl]
  obtain ⟨A', M', R', g1, g2, g3, -, g5⟩ := normalLoop_entries b ks u _ 0 _ M R hq hsh hlat hM hR (by simp)
    (by omega) (by omega)
  refine ⟨A', M', R', by rw [hw.1, g1], by rw [hw.2.1, g2], by rw [hw.2.2, g3], fun j k hk => ?_⟩
  obtain ⟨o, la, ml, rc, f1, f2, f3, f4, f5, f6, f7⟩ := g5 j k hk
  rw [Nat.zero_add] at f1 f5 f6 f7
  unfold turnOut at f1
  rw [if_pos hsh] at f1
  split at f1
  · rename_i a l hh e1 e2 e3
    refine ⟨a, l, hh, la, ml, rc, e1, e2, e3, ?_, f5, f6, f7⟩
    cases hb : b.normal k (.one a) (.one l) u.locCoord (.one hh) with
    | error e => rw [hb] at f1; cases f1
    | ok p =>
      rw [hb] at f1
      cases f1
      exact ⟨_, _, _, _, hb, f2, f3, f4⟩
  · cases f1

/-- Two vectors with two indices meet the hypotheses, and the call succeeds. -/
example (t : Tod) (conv : VD → Arr Tod → ℤ → Except PyErr VD) :
    let b : Bnd := { exBnd t with normal := fun k a _ _ _ => .ok (a, .one (some 80), .one (some 2), .one (some (k : ℝ))) }
    exVD.vectCoord = "magnetic" ∧ exVD.ocbInd = .many [0, 1] ∧ exVD.datInd = .many [0, 1] ∧
    exVD.ocbMlt = .many [some 2, some 2] ∧ ∃ w r, setOcb conv b none
      (setOcbLat (setHeight (setLt (setLat exVD (.many [some 75, some 80])) (.many [some 3, some 4]))
        (.many [some 100, some 100])) (.one none)) = .ok (w, r) := by
  intro b
  refine ⟨rfl, ?_, rfl, rfl, ?_⟩
  · simp [exVD, List.range_succ, exPt]
  · have hR := exRange t
    obtain ⟨w, r, u, h, -⟩ := C69_geometry conv b
      (setOcbLat (setHeight (setLt (setLat exVD (.many [some 75, some 80])) (.many [some 3, some 4]))
        (.many [some 100, some 100])) (.one none)) 2 exPt (by norm_num)
      ⟨.inr rfl, .inr rfl, .inr rfl, .inr rfl, .inr rfl, .inr rfl, .inr rfl, rfl, rfl⟩
      (fun i hi => by
        obtain ⟨⟨p1, p2, p3, p4, p5, p6, p7⟩, q1, q2⟩ := exPt_good t i hi
        exact ⟨⟨p1, p2, p3, p4, p5, p6, p7⟩, q1, q2⟩)
      ⟨hR.1, hR.2⟩
      (.each (fun _ => some 100) (fun _ => 80) (fun _ => 2) (fun _ => none) (fun _ => some 2) (fun i => some (exPt i).rc)
        (none_gap _) rfl rfl rfl rfl rfl rfl rfl rfl (fun i hi => by
          refine ⟨.one (some (exPt i).da), ?_⟩
          have hh : i = 0 ∨ i = 1 := by omega
          rcases hh with rfl | rfl <;> norm_num [exPt, b]))
      (.inr (.inl (by simp [exVD, Arr.shape, setOcbLat, setHeight, setLt, setLat]))) rfl
    exact ⟨w, r, h⟩

/-- C141 is false for the results: when `normal_coord` finds nothing for the new place, for example because it is in the
other hemisphere, `set_ocb` ends without a word and the components, magnitudes, angles and quadrants of the old place
stay. -/
theorem C141_results_refuted (conv : VD → Arr Tod → ℤ → Except PyErr VD) (b : Bnd) (f : Option (F → F → F → F))
    (v : VD) (x y z : Arr F) (k : ℤ) (t : Tod) (la ml rc : Arr F) (hm : v.vectCoord = "magnetic")
    (hi : v.ocbInd = .one k) (ht : pyIdx b.dtime b.recInd = .ok t)
    (hn : b.normal k (spread v.datInd x) (spread v.datInd y) v.locCoord (spread v.datInd z) =
      .ok (spread v.datInd x, la, ml, rc)) (hla : ∀ q ∈ la.entries, q = none) :
    ∃ w, setOcb conv b f (setOcbLat (setHeight (setLt (setLat v x) y) z) (.one none)) = .ok (w, k) ∧
      w.lat = spread v.datInd x ∧ w.lt = spread v.datInd y ∧ w.ocbLat = la ∧
      w.ocbN = v.ocbN ∧ w.ocbE = v.ocbE ∧ w.ocbZ = v.ocbZ ∧ w.ocbMag = v.ocbMag ∧ w.poleAngle = v.poleAngle ∧
      w.ocbQuad = v.ocbQuad ∧ w.vecQuad = v.vecQuad := by
  set u := setOcbLat (setHeight (setLt (setLat v x) y) z) (.one none) with hu
  have hs : ∀ q : Arr F, spread (.one k) q = q := by intro q; cases q <;> rfl
  have h1 : fillCoords b u = .ok ({ u with lat := spread v.datInd x, ocbLat := la, ocbMlt := ml, rCorr := rc }, k) := by
    unfold fillCoords
    rw [(gap_iff _).2 (none_gap _), if_pos rfl]
    have hi' : u.ocbInd = .one k := hi
    rw [hi']
    simp only [bind, Except.bind, pure, Except.pure, hs]
    have : b.normal k u.lat u.lt u.locCoord u.height = .ok (spread v.datInd x, la, ml, rc) := hn
    rw [this]
  refine ⟨{ u with lat := spread v.datInd x, ocbLat := la, ocbMlt := ml, rCorr := rc }, ?_, rfl, rfl, rfl, rfl, rfl, rfl, rfl,
    rfl, rfl, rfl⟩
  have ht' : timesOf b u = .ok (.one t) := by
    unfold timesOf
    have hi' : u.ocbInd = .one k := hi
    rw [hi']
    simp only
    rw [ht]; rfl
  have hmu : u.vectCoord = "magnetic" := hm
  unfold setOcb
  simp only [bind, Except.bind, pure, Except.pure, hmu, ne_eq, not_true_eq_false, if_false, ht', h1]
  rw [if_pos]
  exact (gap_iff _).2 (.inl hla)

/-- A single vector with results of an earlier call, a boundary object that knows nothing about the south, and a move to
75 degrees south. -/
example (t : Tod) : ∃ (b : Bnd) (v : VD), v.vectCoord = "magnetic" ∧ v.ocbInd = .one 1 ∧ pyIdx b.dtime b.recInd = .ok t ∧
    v.ocbN = .one (some 50) ∧
    b.normal 1 (spread v.datInd (.one (some (-75)))) (spread v.datInd v.lt) v.locCoord (spread v.datInd v.height) =
      .ok (spread v.datInd (.one (some (-75))), .one none, .one none, .one none) := by
  refine ⟨{ exBnd t with normal := fun _ a _ _ _ => .ok (a, .one none, .one none, .one none) },
    { exVD with datInd := .one 0, ocbInd := .one 1, lt := .one (some 3), height := .one (some 350)
                ocbN := .one (some 50) }, rfl, rfl, rfl, rfl, rfl⟩

/-! ## C142 -/

/-- C142 is false: if a scale function is already set, the one given to `set_ocb` is ignored. -/
theorem C142_given_refuted (conv : VD → Arr Tod → ℤ → Except PyErr VD) (b : Bnd) (f g : F → F → F → F)
    (v : VD) (hm : v.vectCoord = "magnetic") (hs : v.scaleFunc = some g) :
    setOcb conv b (some f) v = setOcb conv b none v ∧
    ∀ w c, setOcb conv b (some f) v = .ok (w, c) → w.scaleFunc = some g := by
  have hp : ∀ u : VD, u.scaleFunc = some g → pickScale (some f) u = pickScale none u := by
    intro u hu; unfold pickScale; rw [hu]
  have hrot : ∀ u : VD, u.scaleFunc = some g → rotateStep (some f) u = rotateStep none u := by
    intro u hu
    unfold rotateStep
    simp only [bind, Except.bind]
    cases hq : calcPoleAngle u with
    | error e => rfl
    | ok u1 =>
      simp only
      split_ifs
      · rfl
      · cases hd : defineQuadrants u1 with
        | error e => rfl
        | ok u2 =>
          simp only
          rw [hp]
          have e1 := calcPoleAngle_place hq
          have e2 := defineQuadrants_local hd rfl rfl rfl rfl rfl rfl rfl
          rw [hd] at e2
          rw [Except.ok.inj e2]
          show u1.scaleFunc = some g
          rw [e1]
          exact hu
  have heq : setOcb conv b (some f) v = setOcb conv b none v := by
    unfold setOcb
    simp only [bind, Except.bind, pure, Except.pure, hm, ne_eq, not_true_eq_false, if_false]
    cases timesOf b v with
    | error e => rfl
    | ok t =>
      simp only
      cases hfill : fillCoords b v with
      | error e => rfl
      | ok x =>
        obtain ⟨v1, c1⟩ := x
        simp only
        split_ifs
        · rfl
        · cases hps : poleStep b v1 with
          | error e => rfl
          | ok v2 =>
            simp only
            rw [hrot]
            obtain ⟨_, _, _, _, rfl⟩ := fillCoords_only hfill
            have e2 := poleStep_local hps rfl rfl
            rw [hps] at e2
            rw [Except.ok.inj e2]
            exact hs
  refine ⟨heq, fun w c h => ?_⟩
  obtain ⟨-, v1, h1, hr⟩ := setOcb_inv hm h
  obtain ⟨_, _, _, _, rfl⟩ := fillCoords_only h1
  rcases hr with ⟨-, rfl⟩ | ⟨-, v2, h2, h3⟩
  · exact hs
  · obtain ⟨a1, a2, a3, a4, a5, -, -, hr⟩ := steps_inv h2 h3
    rcases hr with ⟨-, rfl⟩ | ⟨h5, a6, a7, n, e, z, m, g', hg, -, -, rfl⟩
    · exact hs
    · have := hg _ (.inl rfl)
      have hk := congrArg VD.scaleFunc this
      unfold pickScale at hk
      simp only [hs] at hk
      exact hk.symm

/-- C142 as far as it holds: a call without a scale function set before, that gets as far as a pole angle, uses and
keeps the one it is given.  Missing: calls on objects that have one (refuted above). -/
theorem C142_first_partial (conv : VD → Arr Tod → ℤ → Except PyErr VD) (b : Bnd) (f : F → F → F → F) (v w : VD)
    (c : ℤ) (hm : v.vectCoord = "magnetic") (hs : v.scaleFunc = none) (h : setOcb conv b (some f) v = .ok (w, c))
    (hc : ¬ Gap w) (ha : ∃ x ∈ w.poleAngle.entries, x ≠ none) :
    w.scaleFunc = some f ∧ scaleVector w = .ok w := by
  obtain ⟨-, v1, h1, hr⟩ := setOcb_inv hm h
  obtain ⟨_, _, _, _, rfl⟩ := fillCoords_only h1
  rcases hr with ⟨h0, rfl⟩ | ⟨-, v2, h2, h3⟩
  · exact absurd ((gap_iff _).1 h0) hc
  have hN : w.poleAngle.allNan = false := by
    obtain ⟨x, hx, hx'⟩ := ha
    unfold Arr.allNan
    rw [List.all_eq_false]
    exact ⟨x, hx, by simpa using hx'⟩
  obtain ⟨a1, a2, a3, a4, a5, -, -, hr⟩ := steps_inv h2 h3
  rcases hr with ⟨h5, rfl⟩ | ⟨h5, a6, a7, n, e, z, m, g', hg, -, s7, rfl⟩
  · have h5' : a5.allNan = false := hN
    rw [h5] at h5'
    cases h5'
  · have hk := congrArg VD.scaleFunc (hg _ (.inl rfl))
    unfold pickScale at hk
    simp only [hs] at hk
    refine ⟨hk.symm, ?_⟩
    exact scaleVector_local s7 rfl rfl rfl rfl rfl rfl rfl rfl rfl rfl rfl rfl rfl

/-- C142 is false in particular for a second call with another scale function: the results of the first stay. -/
theorem C142_second_refuted (conv : VD → Arr Tod → ℤ → Except PyErr VD) (b : Bnd) (f g : F → F → F → F) (v w : VD)
    (c c' : ℤ) (hm : v.vectCoord = "magnetic") (hs : v.scaleFunc = none) (h : setOcb conv b (some f) v = .ok (w, c))
    (hc : ¬ Gap w) (ha : ∃ x ∈ w.poleAngle.entries, x ≠ none) (hr : ∃ t, pyIdx b.dtime c' = .ok t) :
    setOcb conv { b with recInd := c' } (some g) w = .ok (w, c') := by
  have hw := (C142_first_partial conv b f v w c hm hs h hc ha).1
  have hmw : w.vectCoord = "magnetic" := by
    obtain ⟨-, v1, h1, hr⟩ := setOcb_inv hm h
    obtain ⟨_, _, _, _, rfl⟩ := fillCoords_only h1
    rcases hr with ⟨-, rfl⟩ | ⟨-, v2, h2, h3⟩
    · exact hm
    · obtain ⟨a1, a2, a3, a4, a5, -, -, hr⟩ := steps_inv h2 h3
      rcases hr with ⟨-, rfl⟩ | ⟨h5, a6, a7, n, e, z, m, g', hg, -, -, rfl⟩
      · exact hm
      · exact hm
  rw [(C142_given_refuted conv { b with recInd := c' } g f w hmw hw).1,
    ← (C142_given_refuted conv { b with recInd := c' } f f w hmw hw).1]
  exact C140_repeat conv b (some f) v w c c' hm h hc hr

/-- The hypotheses are met: a call with the scale function that halves every component. -/
example (t : Tod) (conv : VD → Arr Tod → ℤ → Except PyErr VD) :
    ∃ w c, setOcb conv (exBnd t) (some fun x _ _ => x.map (· / 2)) exVD = .ok (w, c) ∧ exVD.scaleFunc = none ∧ ¬ Gap w ∧
      ∃ x ∈ w.poleAngle.entries, x ≠ none := by
  obtain ⟨w, c, h, hn, -⟩ := C69_scaled_arrays conv (exBnd t) exVD 2 exPt (by norm_num) exVD_holds (exPt_good t)
    (exRange t) (.known exVD_known) (.inr (.inl (by simp [exVD, Arr.shape]))) (fun x _ _ => x.map (· / 2)) _
    (.inl ⟨rfl, rfl⟩) (.inl (by simp [exVD, Arr.shape]))
  obtain ⟨h1, h2⟩ := found_of_change rfl (exVD_known.there (by norm_num)) h (ex_change hn)
  exact ⟨w, c, h, rfl, h1, h2⟩

end Ocb.Scale
