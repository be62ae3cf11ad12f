import Verif.Model.SmagDual
import Verif.Props.SetDualMore
import Verif.Props.SmagOutMore

/-!
# C173: the files of `supermag2ascii_ocb` with a `DualBoundary`
-/

set_option autoImplicit false

namespace Ocb.Scale

open Ocb.Time Ocb.Coord Ocb.Vec

/-- The pole of the circle and the radii for a pair are those of the record of the OCB. -/
theorem pole_back (D : DualObj) (s : DStore) (fresh : ℕ) (hem hem' : ℤ) (times times' : List Tod) (cursor k j : ℤ)
    (hj : pyIdx D.ocbInd k = .ok j) (a : Arr F) (v : VD) (hv : v.ocbInd = .one j) :
    poleStep (dualBnd D s fresh hem times) (reIdx (.one k) a v)
      = (poleStep (ocbBnd D hem' times' cursor) v).map (reIdx (.one k) a) := by
  have h1 : circleInd (dualBnd D s fresh hem times) (reIdx (.one k) a v) = .ok (.one j) := by
    unfold circleInd
    simp only [dualBnd, reIdx]
    show (pyIdx D.ocbInd k).map Arr.one = _
    rw [hj]
    rfl
  have h2 : circleInd (ocbBnd D hem' times' cursor) v = .ok (.one j) := by
    unfold circleInd
    simp only [ocbBnd, hv]
  unfold poleStep
  rw [h1, h2]
  simp only [bind, Except.bind, pure, Except.pure, dualBnd, ocbBnd]
  have e : (reIdx (.one k) a v).rCorr = v.rCorr := rfl
  rw [e]
  cases idxArr (D.ocbRecs.map Rec.r) (.one j) with
  | error e => rfl
  | ok r =>
    simp only
    cases r.zip v.rCorr with
    | error e => rfl
    | ok rr =>
      simp only
      cases idxArr (D.ocbRecs.map Rec.phiCent) (.one j) with
      | error e => rfl
      | ok phi =>
        simp only
        cases idxArr (D.ocbRecs.map Rec.rCent) (.one j) with
        | error e => rfl
        | ok rc =>
          simp only
          cases poleArr phi rc with
          | error e => rfl
          | ok p => rfl

/-- `set_ocb` with a dual boundary in terms of `set_ocb` with its OCB: the same object, or the same exception, but for the
latitudes and the index.  If no dual latitude can be found, only the coordinates are set. -/
theorem set_pair (conv : VD → Arr Tod → ℤ → Except PyErr VD) {D D' : DualObj} {O E : Rec} {k : ℤ}
    (hsel : selectPair D k = .ok D') (hD : PairOk D' O E) (s : DStore) (hs : s.WF D') (fresh : ℕ) (hem hem' : ℤ)
    (times times' : List Tod) {t t' : Tod} {cursor : ℤ} (ht : pyIdx times D.recInd = .ok t) (ht' : pyIdx times' cursor = .ok t')
    (f : Option (F → F → F → F)) {v : VD} {pts : List (F × F)} (hv : Locs v pts)
    (hin : ∀ p ∈ pts, ∃ x, p.1 = some x ∧ InHem D'.hem x) (hk : v.ocbInd = .one k) (hm : v.vectCoord = "magnetic")
    (hgap : coordsMissing v = true) :
    ∃ A A' M R, normalDual D s fresh k v.lat v.lt = .ok (v.lat, A, M, R) ∧
      SmagOut.normalOf D'.ocbRecs D'.ocbRecInd v.lat v.lt = .ok (v.lat, A', M, R) ∧
      ((A.allNan || M.allNan || R.allNan) = false → setOcb conv (dualBnd D s fresh hem times) f v =
        (setOcb conv (ocbBnd D hem' times' cursor) f { v with ocbInd := .one D'.ocbRecInd }).map
          fun p => (reIdx (.one k) A p.1, k)) ∧
      ((A.allNan || M.allNan || R.allNan) = true → setOcb conv (dualBnd D s fresh hem times) f v =
        .ok ({ v with ocbLat := A, ocbMlt := M, rCorr := R }, k)) := by
  obtain ⟨q1, q2, -, q3, -, q5⟩ := selectPair_ok hsel hD.sel.pos hD.sel.lt
  obtain ⟨A, A', M, R, n1, n2, n3⟩ := normal_pair hsel hD s hs fresh hv fun p hp => by
    obtain ⟨x, hx, hx'⟩ := hin p hp
    exact (wrongHem_iff _ _).2 ⟨x, hx, by rw [hD.oHem]; exact hx'⟩
  have n2' := n2
  rw [q1] at n2'
  have hfill : fillCoords (dualBnd D s fresh hem times) v = .ok ({ v with ocbLat := A, ocbMlt := M, rCorr := R }, k) := by
    unfold fillCoords
    rw [if_pos hgap, hk]
    simp only [dualBnd, n1, bind, Except.bind, pure, Except.pure, spread_one]
  have hfill' : fillCoords (ocbBnd D hem' times' cursor) { v with ocbInd := .one D'.ocbRecInd }
      = .ok ({ v with ocbInd := .one D'.ocbRecInd, ocbLat := A', ocbMlt := M, rCorr := R }, D'.ocbRecInd) := by
    unfold fillCoords
    rw [if_pos (show coordsMissing { v with ocbInd := .one D'.ocbRecInd } = true from hgap)]
    simp only [ocbBnd, n2', bind, Except.bind, pure, Except.pure, spread_one]
  have htt : timesOf (dualBnd D s fresh hem times) v = .ok (.one t) := by
    unfold timesOf
    rw [hk]
    simp only [dualBnd, ht]
    rfl
  have htt' : timesOf (ocbBnd D hem' times' cursor) { v with ocbInd := .one D'.ocbRecInd } = .ok (.one t') := by
    unfold timesOf
    simp only [ocbBnd, ht']
    rfl
  refine ⟨A, A', M, R, n1, n2, fun hA => ?_, fun hA => ?_⟩
  · have hA1 : coordsMissing { v with ocbLat := A, ocbMlt := M, rCorr := R } = false := hA
    have hA' : coordsMissing { v with ocbInd := .one D'.ocbRecInd, ocbLat := A', ocbMlt := M, rCorr := R } = false := by
      simp only [Bool.or_eq_false_iff] at hA
      unfold coordsMissing
      simp only [Bool.or_eq_false_iff]
      refine ⟨⟨?_, hA.1.2⟩, hA.2⟩
      by_contra hc
      rw [Bool.not_eq_false] at hc
      rw [n3 hc] at hA
      cases hA.1.1
    unfold setOcb
    rw [htt, htt']
    simp only [bind, Except.bind, pure, Except.pure]
    rw [if_neg (by simpa using hm), if_neg (by simpa using hm)]
    simp only [hfill, hfill', hA1, hA', Bool.false_eq_true, if_false]
    have hp := pole_back D s fresh hem hem' times times' cursor k D'.ocbRecInd q5 A
      { v with ocbInd := .one D'.ocbRecInd, ocbLat := A', ocbMlt := M, rCorr := R } rfl
    have he : reIdx (.one k) A { v with ocbInd := .one D'.ocbRecInd, ocbLat := A', ocbMlt := M, rCorr := R }
        = { v with ocbLat := A, ocbMlt := M, rCorr := R } := by
      cases v
      simp only at hk
      subst hk
      rfl
    rw [he] at hp
    rw [hp]
    cases hps : poleStep (ocbBnd D hem' times' cursor)
      { v with ocbInd := .one D'.ocbRecInd, ocbLat := A', ocbMlt := M, rCorr := R } with
    | error e => rfl
    | ok v2 =>
      simp only [Except.map]
      rw [rotate_other]
      cases rotateStep f v2 with
      | error e => rfl
      | ok v3 => rfl
  · unfold setOcb
    rw [htt]
    simp only [bind, Except.bind, pure, Except.pure]
    rw [if_neg (by simpa using hm)]
    simp only [hfill]
    rw [if_pos (show coordsMissing { v with ocbLat := A, ocbMlt := M, rCorr := R } = true from hA)]

/-- The cursor of the object has no influence on the pair that is selected. -/
theorem select_cursor (D : DualObj) (j k : ℤ) : selectPair { D with recInd := j } k = selectPair D k := rfl

theorem dual_cursor (D : DualObj) (s : DStore) (fresh : ℕ) (hem : ℤ) (times : List Tod) (j : ℤ) :
    { dualBnd D s fresh hem times with recInd := j } = dualBnd { D with recInd := j } s fresh hem times := rfl

end Ocb.Scale

namespace Ocb.SmagOut

open Ocb.Vort (F)
open Ocb.Coord (Rec DualObj DStore PairOk GoodPt Piecewise DualOut InHem colat normalPt selRec normalArr dualNormal)
open Ocb.Cycle (Cycler)
open Ocb.Scale (Arr VD construct setOcb selectPair reIdx)
open Ocb.Time (Tod)
open Ocb.VortOut (pick pyIdx_nat mapE_rows mapE_total)

/-- What a row of a pair of boundaries with the records `O` and `E` has to hold: the location, its local time relative to the
OCB, where both boundaries are well placed the latitude that is linear between the pole, the OCB, the EAB and the equator, and
if there is a latitude at all, the vector and its magnitude as the OCB alone gives them. -/
structure DualValues (D : DualObj) (O E : Rec) (scale : Option (F → F → F → F)) (x l n e z : ℝ) (o : Row) : Prop where
  lat : o.lat = some x
  coords : ∃ L M, normalPt O x l = .ok (L, M, O.rf l) ∧ o.ocbMlt = some M ∧ 0 ≤ M ∧ M < 24 ∧
    ∀ ρo ρe, GoodPt O E x l ρo ρe → ∃ y, o.ocbLat = some (D.hem * y) ∧
      Piecewise |D.ocbLat| |D.eabLat| ρo ρe (colat D.hem x) (D.hem * L) y
  rest : o.ocbLat ≠ none → ∃ L, Values O D.ocbLat scale x l n e z { o with ocbLat := some L }

/-- A row can be written if all attributes are arrays of the length of the group. -/
theorem row_total {m : Mag} (hm : Even m) {w : VD} {n a i : ℕ} (hi : i < m.time.length)
    (h : ∀ y ∈ [w.lat, w.lt, w.vectMag, w.vectN, w.vectE, w.vectZ, w.ocbLat, w.ocbMlt, w.ocbMag, w.ocbN, w.ocbE, w.ocbZ],
      ∃ r, arrAt y a = .ok r) : ∃ o, row m w n (a, i) = .ok o := by
  have g : ∀ {α : Type} (l : List α), l.length = m.time.length → ∃ y, pyIdx l (i : ℤ) = .ok y := fun l hl =>
    ⟨_, pyIdx_nat.2 (List.getElem?_eq_getElem (by omega))⟩
  obtain ⟨y1, g1⟩ := g m.time rfl
  obtain ⟨y2, g2⟩ := g m.id hm.id
  obtain ⟨y3, g3⟩ := g m.sml hm.sml
  obtain ⟨y4, g4⟩ := g m.smu hm.smu
  obtain ⟨y5, g5⟩ := g m.sza hm.sza
  obtain ⟨r1, h1⟩ := h w.lat (by simp)
  obtain ⟨r2, h2⟩ := h w.lt (by simp)
  obtain ⟨r3, h3⟩ := h w.vectMag (by simp)
  obtain ⟨r4, h4⟩ := h w.vectN (by simp)
  obtain ⟨r5, h5⟩ := h w.vectE (by simp)
  obtain ⟨r6, h6⟩ := h w.vectZ (by simp)
  obtain ⟨r7, h7⟩ := h w.ocbLat (by simp)
  obtain ⟨r8, h8⟩ := h w.ocbMlt (by simp)
  obtain ⟨r9, h9⟩ := h w.ocbMag (by simp)
  obtain ⟨r10, h10⟩ := h w.ocbN (by simp)
  obtain ⟨r11, h11⟩ := h w.ocbE (by simp)
  obtain ⟨r12, h12⟩ := h w.ocbZ (by simp)
  unfold row
  simp only [bind, Except.bind, pure, Except.pure, g1, g2, g3, g4, g5, h1, h2, h3, h4, h5, h6, h7, h8, h9, h10, h11, h12]
  exact ⟨_, rfl⟩

/-- The rows of one time for a `DualBoundary`. -/
theorem group_double {D D' : DualObj} {O E : Rec} {k : ℤ} (hsel : selectPair D k = .ok D') (hD : PairOk D' O E) {s : DStore}
    (hs : s.WF D') {fresh : ℕ} {hem : ℤ} {times : List Tod} {t : Tod} (ht : pyIdx times k = .ok t) {cyc : Cycler} {cursor : ℤ}
    {scale : Option (F → F → F → F)} {m : Mag} (hm : Even m) {idx : List ℕ} (hne : idx ≠ [])
    (hc : 0 ≤ O.rCent ∧ O.rCent < 90)
    (hi : ∀ i ∈ idx, i < m.time.length ∧ ∃ x l n e z, Station m i x l n e z ∧ InHem D'.hem x ∧ |x| < 90) :
    ∃ rs, group (double D s fresh hem times cyc cursor) scale m idx k = .ok rs ∧
      List.Forall₂ (fun i o => Copied m i o ∧ o.nst = idx.length ∧
        ∀ x l n e z, Station m i x l n e z → DualValues D' O E scale x l n e z o) idx rs := by
  obtain ⟨q1, q2, q2', q3, -, q5⟩ := Scale.selectPair_ok hsel hD.sel.pos hD.sel.lt
  obtain ⟨j, hj⟩ := Int.eq_ofNat_of_zero_le hD.sel.oPos
  have hO : D.ocbRecs[j]? = some O := by
    have := hD.sel.oRec
    rw [hj, Int.toNat_natCast, q1] at this
    exact this
  have hjl := (List.getElem?_eq_some_iff.1 hO).1
  have hlt := fun i h => (hi i h).1
  -- the objects for the pair and for the record of the OCB
  obtain ⟨mag, hmag, hv⟩ := construct_form hm scale (idx := idx) k hlt
  obtain ⟨mag', hmag', hv'⟩ := construct_form hm scale (idx := idx) (j : ℤ) hlt
  rw [hmag, Except.ok.injEq] at hmag'
  subst hmag'
  obtain ⟨v, mag', c1, c2, c3, c4, c5, c6, c7, c8, c9, c10, c11, c12, c13, c14, c15, c16, cn⟩ :=
    construct_group hm scale (idx := idx) k hlt
  rw [hmag, Except.ok.injEq] at c2
  subst c2
  have hvv : construct id (vectArgs m scale idx (j : ℤ)) = .ok { v with ocbInd := .one (j : ℤ) } := by
    rw [hv, Except.ok.injEq] at c1
    rw [hv', ← c1]
    rfl
  -- the stations
  have ev : ∀ (l : List F), (∀ i ∈ idx, ∃ x, l[i]? = some (some x)) →
      pick idx l = (List.range idx.length).map fun a => some (val idx l a) := fun l h => pick_vals h
  have x1 := ev m.mlat fun i h => by obtain ⟨-, x, l, n, e, z, hs, -⟩ := hi i h; exact ⟨x, hs.lat⟩
  have x2 := ev m.mlt fun i h => by obtain ⟨-, x, l, n, e, z, hs, -⟩ := hi i h; exact ⟨l, hs.lt⟩
  have c5' := c5
  have c6' := c6
  rw [x1] at c5'
  rw [x2] at c6'
  set pts : List (F × F) := (List.range idx.length).map fun a => (some (val idx m.mlat a), some (val idx m.mlt a)) with hpts
  have hzip : ((List.range idx.length).map fun a => (some (val idx m.mlat a) : F)).zip
      ((List.range idx.length).map fun a => (some (val idx m.mlt a) : F)) = pts := Scale.range_zip _ _ _
  have hvalin : ∀ a, a < idx.length → InHem D'.hem (val idx m.mlat a) := by
    intro a ha
    obtain ⟨-, x, l, n, e, z, hs, h1, -⟩ := hi idx[a] (List.getElem_mem ha)
    rw [val_eq (List.getElem?_eq_getElem ha) hs.lat]
    exact h1
  have hloc : Scale.Locs v pts := by
    rw [← hzip]
    exact .array _ _ (by simp) c5' c6'
  have hmiss : Scale.coordsMissing v = true := by
    unfold Scale.coordsMissing
    rw [c13]
    rfl
  obtain ⟨A, A', M, R, n1, n2, n3, n4⟩ := Scale.set_pair (fun v _ _ => .ok v) (D := { D with recInd := k }) hsel hD s hs fresh
    hem hem times (List.replicate D.ocbRecs.length t) (t := t) (t' := t) (cursor := (j : ℤ)) ht
    (pyIdx_nat.2 (by simp [hjl])) none hloc (by
      intro p hp
      obtain ⟨a, ha, rfl⟩ := List.mem_map.1 hp
      exact ⟨_, rfl, hvalin a (List.mem_range.1 ha)⟩) c4 c12 hmiss
  -- the coordinates
  obtain ⟨out, s', g1, -, -, g2⟩ := Coord.dualNormal_out hD s hs fresh pts false
  have gl : out.length = idx.length := by
    rw [← g2.length_eq, hpts]
    simp
  rw [c5', c6'] at n1 n2
  obtain ⟨L, N, o1, o2⟩ := normal_in hD.oValid (m := idx.length) (fun a => val idx m.mlat a) (fun a => val idx m.mlt a)
    (fun a ha => by rw [hD.oHem]; exact hvalin a ha)
  have hA : A = .many (out.map (·.1)) := by
    unfold Scale.normalDual at n1
    rw [show selectPair { D with recInd := k } k = .ok D' from hsel] at n1
    simp only [bind, Except.bind, pure, Except.pure, hzip, g1] at n1
    simp only [Except.ok.injEq, Prod.mk.injEq] at n1
    exact n1.2.1.symm
  obtain ⟨hM, hR⟩ : M = .many ((List.range idx.length).map fun a => some (N a)) ∧
      R = .many ((List.range idx.length).map fun a => some (O.rf (val idx m.mlt a))) := by
    unfold normalOf at n2
    rw [Coord.selRec_sel hD.sel] at n2
    simp only [bind, Except.bind, pure, Except.pure, hzip, hpts, o1, List.map_map] at n2
    simp only [Except.ok.injEq, Prod.mk.injEq] at n2
    exact ⟨n2.2.2.1.symm, n2.2.2.2.symm⟩
  have hpos : 0 < idx.length := List.length_pos_iff.2 hne
  have nM : M.allNan = false := by
    rw [hM]
    exact Scale.notNan_of (i := 0) (x := N 0) (by simp [hpos])
  have nR : R.allNan = false := by
    rw [hR]
    exact Scale.notNan_of (i := 0) (x := O.rf (val idx m.mlt 0)) (by simp [hpos])
  have hgA : ∀ a, a < idx.length → ∃ y, out[a]? = some y ∧ arrAt A a = .ok y.1 := by
    intro a ha
    obtain ⟨y, hy⟩ : ∃ y, out[a]? = some y := ⟨_, List.getElem?_eq_getElem (by omega)⟩
    refine ⟨y, hy, ?_⟩
    rw [hA, arrAt_many, List.getElem?_map, hy]
    rfl
  -- the coordinates of a row
  have hcoords : ∀ (a : ℕ) (ha : a < idx.length) (x l n e z : ℝ), Station m idx[a] x l n e z → ∀ o : Row,
      o.lat = some (val idx m.mlat a) → arrAt A a = .ok o.ocbLat → arrAt M a = .ok o.ocbMlt →
      o.lat = some x ∧ ∃ L M, normalPt O x l = .ok (L, M, O.rf l) ∧ o.ocbMlt = some M ∧ 0 ≤ M ∧ M < 24 ∧
        ∀ ρo ρe, GoodPt O E x l ρo ρe → ∃ y, o.ocbLat = some (D'.hem * y) ∧
          Piecewise |D'.ocbLat| |D'.eabLat| ρo ρe (colat D'.hem x) (D'.hem * L) y := by
    intro a ha x l n e z hs o hl hoA hoM
    have hg := List.getElem?_eq_getElem ha
    have vx := val_eq hg hs.lat
    have vl := val_eq hg hs.lt
    refine ⟨by rw [hl, vx], L a, N a, ?_, ?_, (o2 a ha).2.1, (o2 a ha).2.2, ?_⟩
    · have := (o2 a ha).1
      rw [vx, vl] at this
      exact this
    · rw [hM, arr_get _ ha, Except.ok.injEq] at hoM
      exact hoM.symm
    · intro ρo ρe hgood
      obtain ⟨y, y1, y2⟩ := hgA a ha
      rw [y2, Except.ok.injEq] at hoA
      obtain ⟨y', y1', y3, -⟩ := Coord.forall₂_at g2 (i := a) (show pts[a]? = some (some x, some l) by simp [hpts, ha, vx, vl])
      rw [y1, Option.some.injEq] at y1'
      subst y1'
      obtain ⟨u, L', M', u1, u2, u3⟩ := y3 x l ρo ρe rfl hgood
      have u4 := (o2 a ha).1
      rw [vx, vl, u1] at u4
      simp only [Except.ok.injEq, Prod.mk.injEq] at u4
      refine ⟨u, ?_, ?_⟩
      · rw [← hoA, u2]
      · rw [← u4.1]
        exact u3
  have hpk : ∀ (l : List F), l.length = m.time.length → (pick idx l).length = idx.length := fun l hl =>
    pick_length (by rw [hl]; exact hlt)
  cases hAn : A.allNan with
  | false =>
    have hset := n3 (by rw [hAn, nM, nR]; rfl)
    obtain ⟨rs', r1, r2⟩ := group_values (recs := D.ocbRecs) (hem := hem) (blat := D.ocbLat)
      (times := List.replicate D.ocbRecs.length t) (cyc := cyc) (cursor := cursor) (scale := scale) hm hne hO hD.oValid hc
      (by simpa using hjl) (k := j) (by rw [hD.oHem]; exact hi)
    have r1' := r1
    unfold group at r1
    rw [hvv] at r1
    simp only [bind, Except.bind] at r1
    rw [hj] at hset
    have hb : ({ (single D.ocbRecs hem D.ocbLat (List.replicate D.ocbRecs.length t) cyc cursor).bnd with recInd := (j : ℤ) } :
        Scale.Bnd) = Scale.ocbBnd { D with recInd := k } hem (List.replicate D.ocbRecs.length t) (j : ℤ) := rfl
    rw [hb] at r1
    split at r1
    · cases r1
    rename_i w' hw'
    rw [hw'] at hset
    obtain ⟨z1, z2⟩ := zip_range (mapE_rows r1)
    have hok : ∃ rs, mapE (row m (reIdx (.one k) A w'.1) idx.length) ((List.range idx.length).zip idx) = .ok rs := by
      refine mapE_total fun p hp => ?_
      obtain ⟨n, hn⟩ := List.mem_iff_getElem?.1 hp
      obtain ⟨h1, h2⟩ := List.getElem?_zip_eq_some.1 hn
      obtain ⟨hlt', hp1⟩ := List.getElem?_eq_some_iff.1 h1
      rw [List.getElem_range] at hp1
      rw [List.length_range] at hlt'
      obtain ⟨p1, p2⟩ := p
      simp only at hp1 h2
      subst hp1
      obtain ⟨o', -, o2'⟩ := z2 n p2 h2
      obtain ⟨-, -, -, -, -, a6, a7, a8, a9, a10, a11, a12, a13, a14, a15, a16, a17, -⟩ := row_parts o2'
      obtain ⟨y0, -, hy0⟩ := hgA n hlt'
      refine row_total hm (hlt _ (List.mem_of_getElem? h2)) ?_
      intro y hy
      simp only [List.mem_cons, List.not_mem_nil, or_false] at hy
      rcases hy with rfl | rfl | rfl | rfl | rfl | rfl | rfl | rfl | rfl | rfl | rfl | rfl
      · exact ⟨_, a6⟩
      · exact ⟨_, a7⟩
      · exact ⟨_, a8⟩
      · exact ⟨_, a9⟩
      · exact ⟨_, a10⟩
      · exact ⟨_, a11⟩
      · exact ⟨_, hy0⟩
      · exact ⟨_, a13⟩
      · exact ⟨_, a14⟩
      · exact ⟨_, a15⟩
      · exact ⟨_, a16⟩
      · exact ⟨_, a17⟩
    obtain ⟨rs, hrs⟩ := hok
    have hgroup : group (double D s fresh hem times cyc cursor) scale m idx k = .ok rs := by
      unfold group
      rw [c1]
      simp only [bind, Except.bind]
      rw [show ({ (double D s fresh hem times cyc cursor).bnd with recInd := k } : Scale.Bnd) =
        Scale.dualBnd { D with recInd := k } s fresh hem times from rfl, hset]
      exact hrs
    refine ⟨rs, hgroup, ?_⟩
    have hcop := group_rows hm hlt hgroup
    obtain ⟨t1, t2⟩ := zip_range (mapE_rows hrs)
    rw [List.forall₂_iff_get] at hcop r2 ⊢
    refine ⟨hcop.1, fun a h1 h2 => ⟨(hcop.2 a h1 h2).1, (hcop.2 a h1 h2).2, ?_⟩⟩
    intro x l n e z hst
    simp only [List.get_eq_getElem] at hst ⊢
    obtain ⟨-, -, rv⟩ := r2.2 a h1 (by omega)
    simp only [List.get_eq_getElem] at rv
    have rv := rv x l n e z hst
    have hg := List.getElem?_eq_getElem h1
    obtain ⟨o, e1, e2⟩ := t2 a _ hg
    obtain ⟨o', e1', e2'⟩ := z2 a _ hg
    rw [List.getElem?_eq_getElem h2, Option.some.injEq] at e1
    rw [List.getElem?_eq_getElem (show a < rs'.length by omega), Option.some.injEq] at e1'
    rw [e1]
    rw [e1'] at rv
    obtain ⟨-, -, -, -, -, a6, -, -, -, -, -, a12, a13, a14, a15, a16, a17, -⟩ := row_parts e2
    obtain ⟨-, -, -, -, -, b6, -, -, -, -, -, b12, b13, b14, b15, b16, b17, -⟩ := row_parts e2'
    have f6 : o.lat = o'.lat := Except.ok.inj (a6.symm.trans b6)
    have f13 : o.ocbMlt = o'.ocbMlt := Except.ok.inj (a13.symm.trans b13)
    have f14 : o.ocbMag = o'.ocbMag := Except.ok.inj (a14.symm.trans b14)
    have f15 : o.ocbN = o'.ocbN := Except.ok.inj (a15.symm.trans b15)
    have f16 : o.ocbE = o'.ocbE := Except.ok.inj (a16.symm.trans b16)
    have f17 : o.ocbZ = o'.ocbZ := Except.ok.inj (a17.symm.trans b17)
    obtain ⟨L', M', v1, v2, v3, v4⟩ := rv.coords
    have hM' : arrAt M a = .ok o.ocbMlt := by
      rw [hM, arr_get _ h1, f13, v3]
      have := (o2 a h1).1
      rw [val_eq hg hst.lat, val_eq hg hst.lt, v1] at this
      simp only [Except.ok.injEq, Prod.mk.injEq] at this
      rw [this.2.1]
    obtain ⟨k1, k2⟩ := hcoords a h1 x l n e z hst o (by rw [f6, rv.lat, val_eq hg hst.lat]) a12 hM'
    refine ⟨k1, k2, fun _ => ⟨L', ?_⟩⟩
    rw [q2]
    refine ⟨k1, ⟨L', M', v1, rfl, by rw [← v3]; exact f13, v4⟩, ?_, ?_⟩
    · show _ → _ → o.ocbN = _ ∧ o.ocbE = _ ∧ o.ocbZ = _
      rw [f15, f16, f17]
      exact rv.vec
    · show ∀ a b c : ℝ, o.ocbN = some a → o.ocbE = some b → o.ocbZ = some c → o.ocbMag = _
      rw [f14, f15, f16, f17]
      exact rv.mag
  | true =>
    have hset := n4 (by rw [hAn]; rfl)
    have x3 := ev m.bn fun i h => by obtain ⟨-, x, l, n, e, z, hs, -⟩ := hi i h; exact ⟨n, hs.n⟩
    have x4 := ev m.be fun i h => by obtain ⟨-, x, l, n, e, z, hs, -⟩ := hi i h; exact ⟨e, hs.e⟩
    have x5 := ev m.bz fun i h => by obtain ⟨-, x, l, n, e, z, hs, -⟩ := hi i h; exact ⟨z, hs.z⟩
    have wmag : ∃ f : ℕ → F, v.vectMag = .many ((List.range idx.length).map f) := by
      rw [c10]
      rw [x3, x4, x5] at hmag
      have r : ∀ g : ℕ → F, Scale.Reads (Arr.many ((List.range idx.length).map g)) idx.length g := fun g => .inr rfl
      obtain ⟨c, d1, d2⟩ := (r fun a => some (val idx m.bn a)).mag (r fun a => some (val idx m.be a)) (r fun a => some (val idx m.bz a))
      rw [hmag, Except.ok.injEq] at d1
      subst d1
      exact ⟨_, reads_many d2 (mag_left hmag (by simp [Arr.shape]))⟩
    obtain ⟨fm, wmag⟩ := wmag
    have hok : ∃ rs, mapE (row m { v with ocbLat := A, ocbMlt := M, rCorr := R } idx.length)
        ((List.range idx.length).zip idx) = .ok rs := by
      refine mapE_total fun p hp => ?_
      obtain ⟨n, hn⟩ := List.mem_iff_getElem?.1 hp
      obtain ⟨h1, h2⟩ := List.getElem?_zip_eq_some.1 hn
      obtain ⟨hlt', hp1⟩ := List.getElem?_eq_some_iff.1 h1
      rw [List.getElem_range] at hp1
      rw [List.length_range] at hlt'
      obtain ⟨p1, p2⟩ := p
      simp only at hp1 h2
      subst hp1
      obtain ⟨y0, -, hy0⟩ := hgA n hlt'
      have many : ∀ (l : List F), l.length = idx.length → ∃ r, arrAt (Arr.many l) n = .ok r := fun l hl =>
        ⟨_, arrAt_many.2 (List.getElem?_eq_getElem (by omega))⟩
      refine row_total hm (hlt _ (List.mem_of_getElem? h2)) ?_
      intro y hy
      simp only [List.mem_cons, List.not_mem_nil, or_false] at hy
      rcases hy with rfl | rfl | rfl | rfl | rfl | rfl | rfl | rfl | rfl | rfl | rfl | rfl
      · rw [c5]; exact many _ (hpk _ hm.mlat)
      · rw [c6]; exact many _ (hpk _ hm.mlt)
      · rw [wmag]; exact many _ (by simp)
      · rw [c7]; exact many _ (hpk _ hm.bn)
      · rw [c8]; exact many _ (hpk _ hm.be)
      · rw [c9]; exact many _ (hpk _ hm.bz)
      · exact ⟨_, hy0⟩
      · rw [hM]; exact many _ (by simp)
      · rw [cn v.ocbMag (by simp)]; exact many _ (by simp)
      · rw [cn v.ocbN (by simp)]; exact many _ (by simp)
      · rw [cn v.ocbE (by simp)]; exact many _ (by simp)
      · rw [cn v.ocbZ (by simp)]; exact many _ (by simp)
    obtain ⟨rs, hrs⟩ := hok
    have hgroup : group (double D s fresh hem times cyc cursor) scale m idx k = .ok rs := by
      unfold group
      rw [c1]
      simp only [bind, Except.bind]
      rw [show ({ (double D s fresh hem times cyc cursor).bnd with recInd := k } : Scale.Bnd) =
        Scale.dualBnd { D with recInd := k } s fresh hem times from rfl, hset]
      exact hrs
    refine ⟨rs, hgroup, ?_⟩
    have hcop := group_rows hm hlt hgroup
    obtain ⟨t1, t2⟩ := zip_range (mapE_rows hrs)
    rw [List.forall₂_iff_get] at hcop ⊢
    refine ⟨hcop.1, fun a h1 h2 => ⟨(hcop.2 a h1 h2).1, (hcop.2 a h1 h2).2, ?_⟩⟩
    intro x l n e z hst
    simp only [List.get_eq_getElem] at hst ⊢
    have hg := List.getElem?_eq_getElem h1
    obtain ⟨o, e1, e2⟩ := t2 a _ hg
    rw [List.getElem?_eq_getElem h2, Option.some.injEq] at e1
    rw [e1]
    obtain ⟨-, -, -, -, -, a6, -, -, -, -, -, a12, a13, -⟩ := row_parts e2
    simp only at a6 a12 a13
    rw [c5', arr_get _ h1, Except.ok.injEq] at a6
    obtain ⟨k1, k2⟩ := hcoords a h1 x l n e z hst o a6.symm a12 a13
    refine ⟨k1, k2, fun hsome => ?_⟩
    exfalso
    apply hsome
    obtain ⟨y, y1, y2⟩ := hgA a h1
    rw [y2, Except.ok.injEq] at a12
    rw [← a12]
    rw [hA] at hAn
    have : ∀ y ∈ out.map (·.1), y = none := by simpa [Arr.allNan, Arr.entries] using hAn
    exact this _ (List.mem_map.2 ⟨y, List.mem_of_getElem? y1, rfl⟩)

/-! ### The file -/

variable {good : ℤ → Prop}

/-- Each pair can be selected, with two sound boundaries of the hemisphere. -/
structure Paired (D : DualObj) (s : DStore) (times : List Tod) (cyc : Cycler) (hem : ℤ) : Prop where
  ntimes : times.length = cyc.times.length
  valid : ∀ k : ℕ, k < cyc.times.length → ∃ D' O E, selectPair D k = .ok D' ∧ PairOk D' O E ∧ s.WF D' ∧ D'.hem = hem ∧
    0 ≤ O.rCent ∧ O.rCent < 90

/-- The rows of a group of the loop. -/
theorem double_run {D : DualObj} {s : DStore} {fresh : ℕ} {hem : ℤ} {times : List Tod} {cyc : Cycler} {cursor : ℤ}
    (hb : Cycle.IsBoundary cyc good) (h0 : -1 ≤ cursor) (hu : Paired D s times cyc hem) {tol : ℤ} (htol : 0 ≤ tol)
    {scale : Option (F → F → F → F)} {m : Mag} (hm : Even m) (hlat : ∀ x, some x ∈ m.mlat → |x| < 90)
    {gs : List (List ℕ × ℤ)} (hgs : Smag.driveGroups cyc (cut m hem).time tol 0 cursor = .ok gs) {g : List ℕ × ℤ} (hg : g ∈ gs) :
    ∃ rs, group (double D s fresh hem times cyc cursor) scale (cut m hem) g.1 g.2 = .ok rs ∧
      List.Forall₂ (fun j o => Copied m (org m hem j) o ∧
        ∃ D' O E, selectPair D g.2 = .ok D' ∧ PairOk D' O E ∧ ∀ x l n e z, Station m (org m hem j) x l n e z →
          DualValues D' O E scale x l n e z o) g.1 rs := by
  obtain ⟨t, h1, h2, h3, h4, h5⟩ := group_of (b := double D s fresh hem times cyc cursor) hb h0 htol hm hgs hg
  obtain ⟨j0, hj0⟩ := List.exists_mem_of_ne_nil _ h3
  obtain ⟨_, _, _, ⟨k0, k1⟩, _⟩ := (h5 j0 hj0).2.2.2
  obtain ⟨k, hk⟩ := Int.eq_ofNat_of_zero_le k0
  have k2 := (List.getElem?_eq_some_iff.1 k1).1
  rw [hk, Int.toNat_natCast] at k2
  obtain ⟨D', O, E, v1, v2, v3, v4, v5, v6⟩ := hu.valid k k2
  have hkt : k < times.length := by
    have := hu.ntimes
    have : (double D s fresh hem times cyc cursor).cyc = cyc := rfl
    rw [this] at k2
    omega
  obtain ⟨rs, r1, r2⟩ := group_double (fresh := fresh) (hem := hem) (cyc := cyc) (cursor := cursor) (scale := scale) v1 v2 v3
    (pyIdx_nat.2 (List.getElem?_eq_getElem hkt)) (cut_even hm hem) h3 ⟨v5, v6⟩ (by
      intro j hj
      obtain ⟨a1, a2, a3, a4⟩ := h5 j hj
      refine ⟨(List.getElem?_eq_some_iff.1 a2).1, ?_⟩
      obtain ⟨x, l, n, e, z, s1, s2⟩ := igood_mem.1 (List.mem_of_getElem? a1)
      refine ⟨x, l, n, e, z, (cut_station hm a1).2 s1, ?_, hlat x (List.mem_of_getElem? s1.lat)⟩
      unfold InHem
      rw [v4, ← s2]
      simp)
  rw [hk]
  refine ⟨rs, r1, ?_⟩
  rw [List.forall₂_iff_get] at r2 ⊢
  refine ⟨r2.1, fun a a1 a2 => ?_⟩
  obtain ⟨f1, -, f2⟩ := r2.2 a a1 a2
  simp only [List.get_eq_getElem] at f1 f2 ⊢
  have hj := h5 _ (List.getElem_mem a1)
  exact ⟨f1.orig hm hj.1, D', O, E, v1, v2, fun x l n e z hs => f2 x l n e z ((cut_station hm hj.1).2 hs)⟩

/-- C173: the rows of the file written with a `DualBoundary` belong to pairs of a station and a pair of boundaries, matched as
in C110, and hold the values of `DualValues`: location and local time, the latitude linear between pole, OCB, EAB and equator,
and the vector, scaled with the corrected radius of the OCB, as the OCB alone gives it. -/
theorem C173_rows (D : DualObj) (s : DStore) (fresh : ℕ) (hem : ℤ) (times : List Tod) (cyc : Cycler) (cursor : ℤ)
    (hb : Cycle.IsBoundary cyc good) (h0 : -1 ≤ cursor) (hu : Paired D s times cyc hem) (tol : ℤ) (htol : 0 ≤ tol)
    (scale : Option (F → F → F → F)) (m : Mag) (hm : Even m) (hlat : ∀ x, some x ∈ m.mlat → |x| < 90) (rows : List Row)
    (h : write (double D s fresh hem times cyc cursor) hem tol scale m = .ok (.file rows)) :
    ∃ l : List (ℕ × ℤ), Pairs (double D s fresh hem times cyc cursor) good hem tol m l ∧
      List.Forall₂ (fun p o => Copied m p.1 o ∧
        ∃ D' O E, selectPair D p.2 = .ok D' ∧ PairOk D' O E ∧ ∀ x l n e z, Station m p.1 x l n e z →
          DualValues D' O E scale x l n e z o) l rows := by
  refine rows_core (b := double D s fresh hem times cyc cursor) hb h0 htol hm h _ fun gs g rs hgs hg hrs => ?_
  obtain ⟨rs', r1, r2⟩ := double_run (fresh := fresh) (scale := scale) hb h0 hu htol hm hlat hgs hg
  rw [hrs, Except.ok.injEq] at r1
  subst r1
  exact r2

/-- C173: for stations and pairs in time order, the call fails exactly when none of the complete stations of the hemisphere
overlaps with the pairs in the sense of C60, and then with TypeError. -/
theorem C173_fails_iff (D : DualObj) (s : DStore) (fresh : ℕ) (hem : ℤ) (times : List Tod) (cyc : Cycler) (cursor : ℤ)
    (hb : Cycle.IsBoundary cyc good) (h0 : -1 ≤ cursor) (hu : Paired D s times cyc hem) (tol : ℤ) (htol : 0 ≤ tol)
    (scale : Option (F → F → F → F)) (m : Mag) (hm : Even m) (hlat : ∀ x, some x ∈ m.mlat → |x| < 90)
    (hD : m.time.Pairwise (· ≤ ·)) (hN : Cycle.NondecOn cyc.times (Cycle.Cand good cursor)) (e : PyErr) :
    write (double D s fresh hem times cyc cursor) hem tol scale m = .error e ↔
      cyc.times ≠ [] ∧ e = .typeError ∧ Cycle.NoOverlap cyc good cursor (keptTimes m hem) tol := by
  by_cases hr : cyc.times = []
  · rw [(C111_no_file (double D s fresh hem times cyc cursor) hem tol scale m).2 hr]
    simp [hr]
  have hdr := Smag.C59_error_iff hb (cut m hem).time tol htol cursor h0 (cut_order hm hem hD) hN e
  rw [write_run hr, ← cut_times hm hem]
  change (match Smag.driveGroups cyc (cut m hem).time tol 0 cursor with | .error _ => _ | .ok _ => _) = _ ↔ _
  cases hd : Smag.driveGroups cyc (cut m hem).time tol 0 cursor with
  | error e' =>
    rw [hd] at hdr
    simp only [Except.error.injEq] at hdr ⊢
    rw [hdr]
    exact ⟨fun h => ⟨hr, h⟩, fun h => h.2⟩
  | ok gs =>
    rw [hd] at hdr
    simp only [reduceCtorEq, false_iff] at hdr
    obtain ⟨rs, hrs⟩ := mapE_total (f := fun g : List ℕ × ℤ => group (double D s fresh hem times cyc cursor) scale (cut m hem) g.1 g.2)
      (l := gs) (fun g hg => by
        obtain ⟨rs, h, -⟩ := double_run (fresh := fresh) (scale := scale) hb h0 hu htol hm hlat hd hg
        exact ⟨rs, h⟩)
    simp only [hrs, reduceCtorEq, false_iff]
    exact fun h => hdr h.2

/-- The hypotheses of C173 are met: a station at noon and latitude 80 and the pair of boundaries of `sideDual` give a file with
one row, and the station is well placed. -/
example (t : Tod) : ∃ o, write (double Scale.sideDual ⟨fun _ => [], none, none, none, none⟩ 0 1 [t] (Cycle.dualCycler [0]) 0) 1 60
    none (station 80 12 1 2 3) = .ok (.file [o]) ∧ Paired Scale.sideDual ⟨fun _ => [], none, none, none, none⟩ [t]
      (Cycle.dualCycler [0]) 1 ∧ GoodPt Scale.sideOcb Scale.sideEab 80 12 12 24 := by
  have hb : Cycle.IsBoundary (Cycle.dualCycler [0]) _ := .dual [0] (by simp)
  have h80 : (SignType.sign (80 : ℝ) : ℤ) = 1 := by rw [sign_pos (by norm_num)]; rfl
  have hu : Paired Scale.sideDual ⟨fun _ => [], none, none, none, none⟩ [t] (Cycle.dualCycler [0]) 1 := by
    refine ⟨rfl, fun k hk => ?_⟩
    obtain rfl : k = 0 := by simpa [Cycle.dualCycler] using hk
    exact ⟨_, _, _, Scale.sideDual_sel, Scale.sideDual_ok, Scale.side_store, by norm_num [Scale.sideDual],
      by norm_num [Scale.sideOcb], by norm_num [Scale.sideOcb]⟩
  obtain ⟨rs, r1, r2⟩ := double_run (fresh := 0) (scale := none) (m := station 80 12 1 2 3) (cursor := 0) (tol := 60) hb (by omega) hu
    (by norm_num) (station_even _ _ _ _ _) (by intro y hy; simp [station] at hy; rw [hy, abs_lt]; constructor <;> norm_num) (g := ([0], 0)) (gs := [([0], 0)])
    (by rw [station_cut h80]; exact one_group hb rfl (by norm_num)) (by simp)
  rw [station_cut h80] at r1
  cases r2 with
  | cons a b =>
    cases b
    exact ⟨_, station_write hb rfl rfl (by norm_num) h80 r1, hu, Scale.side_good 80 (by norm_num) (by norm_num)⟩

end Ocb.SmagOut
