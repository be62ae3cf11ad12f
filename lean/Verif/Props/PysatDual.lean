import Verif.Model.PysatDual
import Verif.Props.Dual
import Verif.Props.PysatVect

/-! # C215–C217: the columns added with a dual boundary -/

set_option autoImplicit false

namespace Ocb.Pysat

open Ocb.Files (Name)
open Ocb.Cycle Ocb.Time Ocb.Coord Ocb.Scale

/-! ## Specification -/

/-- The dual latitude `L`, the local time `M` and the correction `c` stand for the magnetic location `lat`, `mlt` and the
boundaries `O` and `E`, which the meridian crosses at the colatitudes `ρo` and `ρe`: the three regions go to the regions
between the reference latitudes, the latitude is linear between the boundaries and from the EAB to the equator, the local time is that relative to the
OCB, and `revert_coord` gives the location back. -/
structure Between (D : DualObj) (O : Rec) (ρo ρe lat mlt L M c : ℝ) : Prop where
  corr : c = O.rf mlt
  hem : InHem D.hem L
  hour : 0 ≤ M ∧ M < 24
  ocb : ∃ N, normalPt O lat mlt = .ok (N, M, c) ∧ (90 - ρo ≤ |lat| → L = N)
  polar : 90 - ρo ≤ |lat| ↔ |D.ocbLat| ≤ |L|
  oval : 90 - ρe ≤ |lat| ∧ |lat| < 90 - ρo ↔ |D.eabLat| ≤ |L| ∧ |L| < |D.ocbLat|
  linear : 90 - ρe ≤ |lat| → |lat| < 90 - ρo →
    |L| = |D.eabLat| + (|D.ocbLat| - |D.eabLat|) * ((|lat| - (90 - ρe)) / (ρe - ρo))
  low : |lat| < 90 - ρe ↔ |L| < |D.eabLat|
  lowLinear : |lat| < 90 - ρe → |L| = |D.eabLat| / (90 - ρe) * |lat|
  back : ∀ (t : DStore) (ref : ℕ) (ow : Bool), t.WF D → t.heap ref = [some mlt] →
    ∃ m t', dualRevert D t [(some L, some M, some c)] (some ref) ow = .ok ([(some lat, some m)], t') ∧
      (|lat| < 90 → SameHour m mlt)

/-- `D` is the object with the cursor at pair `r` and the cursors of its members at the records of that pair (`PairOk.sel`),
and the circles of the pair are `O` and `E`. -/
def PairRun.At (P : PairRun) (r : ℤ) (D : DualObj) (O E : Rec) : Prop :=
  D = { P.obj with recInd := r, ocbRecInd := D.ocbRecInd, eabRecInd := D.eabRecInd } ∧ PairOk D O E

/-- The pairs at the times of the object: members of one hemisphere and reference latitudes in order, with stores that have
a slot for each record. -/
def PairsOk (c : Cycler) (P : PairRun) (h : ℤ) : Prop :=
  P.obj.hem = h ∧ ∀ r tr, At c.times r tr → ∃ D O E, P.At r D O E ∧ ∀ x y, (P.store r x y).WF D

/-- The variables of row `i` are scaled with the two radii that `calc_r` gives for the new coordinates of the row: scaled
radius `α` and unscaled radius `β` of the region, squared for curls. -/
def RegionScaled (D : DualObj) (t : Table) (n : Names) (p : Plan) (b : Name) (o : Out) (i : ℕ) (mlt : ℝ) : Prop :=
  ∃ L c, Cell o (under n.mlat b) i (.fin L) ∧ Cell o (under "r_corr".toList b) i (.fin c) ∧
    ∀ (s : DStore) (ref : ℕ) (ow : Bool), s.WF D → s.heap ref = [some mlt] →
      ∃ α β s', Coord.calcR D s [(some L, some c)] ref ow = .ok ([(some α, some β)], s') ∧
        (∀ e ∈ p.evars, ∀ x, t.cell e i = .fin x → Cell o (under e b) i (.fin (x * (β / α)))) ∧
        ∀ e ∈ p.curls, ∀ x, t.cell e i = .fin x → Cell o (under e b) i (.fin (x * (β / α) ^ 2))

/-! ## Lemmas -/

theorem select_same {D D' : DualObj} {r : ℤ} (h : selectPair D r = .ok D') :
    D'.recInd = r ∧ D'.hem = D.hem ∧ D'.ocbLat = D.ocbLat ∧ D'.ocbRecs = D.ocbRecs ∧ D'.eabRecs = D.eabRecs ∧ D'.ocbInd = D.ocbInd ∧
      D'.eabInd = D.eabInd := by
  unfold selectPair at h
  split_ifs at h
  · cases h; exact ⟨rfl, rfl, rfl, rfl, rfl, rfl, rfl⟩
  · cases h; exact ⟨rfl, rfl, rfl, rfl, rfl, rfl, rfl⟩
  · simp only [bind, Except.bind, pure, Except.pure] at h
    split at h
    · cases h
    · split at h
      · cases h
      · cases h; exact ⟨rfl, rfl, rfl, rfl, rfl, rfl, rfl⟩

theorem pyIdx_of {α : Type} {l : List α} {k : ℤ} {x : α} (h0 : 0 ≤ k) (h : l[k.toNat]? = some x) : pyIdx l k = .ok x := by
  rw [pyIdx, pyGet, if_pos h0, h]

theorem PairRun.At.select {P : PairRun} {r : ℤ} {D : DualObj} {O E : Rec} (h : P.At r D O E) : selectPair P.obj r = .ok D := by
  obtain ⟨e, hD⟩ := h
  have e0 : D.recInd = r := by rw [e]
  have e1 : D.ocbInd = P.obj.ocbInd := by rw [e]
  have e2 : D.eabInd = P.obj.eabInd := by rw [e]
  have h0 := hD.sel.pos
  have h1 := hD.sel.lt
  have h2 := hD.sel.oInd
  have h3 := hD.sel.eInd
  rw [DualObj.records, e1] at h1
  rw [e1] at h2
  rw [e2] at h3
  rw [e0] at h0 h1 h2 h3
  have h1' : ¬ P.obj.records ≤ r := by rw [DualObj.records]; omega
  unfold selectPair
  rw [if_neg (by omega), if_neg h1', pyIdx_of h0 h2, pyIdx_of h0 h3]
  exact congrArg Except.ok e.symm

theorem ocbRec_eq {P : PairRun} {r : ℤ} {D : DualObj} {O E : Rec} (h : P.At r D O E) : P.ocbRec r = some O := by
  simp only [PairRun.ocbRec, h.select, selRec, if_pos h.2.sel.oPos, h.2.sel.oRec]

theorem abs_hem {h x : ℝ} (hh : h = 1 ∨ h = -1) (hx : 0 < x) : |h * x| = x := by
  rcases hh with rfl | rfl
  · rw [one_mul, abs_of_pos hx]
  · rw [neg_one_mul, abs_neg, abs_of_pos hx]

theorem dualNorm_between {P : PairRun} {r : ℤ} {D : DualObj} {O E : Rec} (hA : P.At r D O E) (hs : ∀ x y, (P.store r x y).WF D)
    {lat mlt ρo ρe : ℝ} (hg : GoodPt O E lat mlt ρo ρe) (height : V) :
    ∃ L M c, dualNorm P r (.fin lat) (.fin mlt) height = .ok (.fin L, .fin M, .fin c) ∧
      Between D O ρo ρe lat mlt L M c := by
  have hsel := hA.select
  have hD := hA.2
  obtain ⟨out, s', h1, hback⟩ := C36_round_trip hD (P.store r (.fin lat) (.fin mlt)) (hs _ _)
    (P.fresh r (.fin lat) (.fin mlt)) [(some lat, some mlt)] false
    (by
      intro p hp
      rw [List.mem_singleton] at hp
      subst hp
      exact .inl ⟨lat, mlt, ρo, ρe, rfl, hg⟩)
  have hi : [((some lat : Option ℝ), (some mlt : Option ℝ))][0]? = some (some lat, some mlt) := rfl
  obtain ⟨x, L, M, e1, e2, -, e4⟩ := good_at hD (hs _ _) h1 hi hg
  obtain ⟨y, ⟨w, y1⟩, r1, r2, r3, r4, r5⟩ := C35_regions hD _ s' (hs _ _) _ _ false out h1 0 lat mlt ρo ρe hi hg
  obtain ⟨out2, s2, n1, n2, n3⟩ := C37_no_undefined hD _ (hs (.fin lat) (.fin mlt)) (P.fresh r (.fin lat) (.fin mlt))
    [(some lat, some mlt)] false
  rw [h1] at n1
  simp only [Except.ok.injEq, Prod.mk.injEq] at n1
  obtain ⟨rfl, rfl⟩ := n1
  obtain ⟨bl, M', L', rc', m1, m2, m3, m4⟩ := n3 0 lat mlt ρo ρe hi hg
  have hh : D.hem = 1 ∨ D.hem = -1 := by rw [← hD.oHem]; exact hD.oValid.hem
  rw [e2] at y1 m1
  simp only [Option.some.injEq, Prod.mk.injEq] at y1 m1
  obtain ⟨hxy, -⟩ := y1
  obtain ⟨rfl, rfl, rfl, rfl⟩ := m1
  have hxy : x = y := by
    rcases hh with h | h <;> rw [h] at hxy <;> linarith
  subst hxy
  have hax : |D.hem * x| = x := abs_hem hh r4
  obtain ⟨o, rfl⟩ : ∃ o, out = [o] := List.length_eq_one_iff.1 n2
  simp only [List.getElem?_cons_zero, Option.some.injEq] at e2
  subst e2
  obtain ⟨_, _, F⟩ := facts hD hg
  refine ⟨D.hem * x, M, O.rf mlt, ?_, rfl, m2, ⟨m3, m4⟩, ⟨L, e1, fun hc => ?_⟩, by rw [hax]; exact r1, by rw [hax]; exact r2, fun hc hc' => ?_,
    by rw [hax]; exact r3, by rw [hax]; exact r5, fun t ref ow ht href => ?_⟩
  · simp only [dualNorm, hsel, entry, h1, bind, Except.bind, ofEntry]
  · rw [F.abslat] at hc
    rw [(e4.1 (by linarith)).1, ← mul_assoc]
    rcases hh with h | h <;> rw [h] <;> ring
  · rw [F.abslat] at hc hc'
    rw [hax, F.abslat, e4.2.1 (by linarith) (by linarith)]
    ring
  · obtain ⟨back, t', b1, b2⟩ := hback t ref ow ht href
    cases b2 with
    | cons b3 b4 =>
      cases b4
      rcases b3 with ⟨lat', mlt', m, e, -, rfl, hm⟩ | ⟨hno, -⟩
      · simp only [Prod.mk.injEq, Option.some.injEq] at e
        obtain ⟨rfl, rfl⟩ := e
        exact ⟨m, t', b1, hm⟩
      · exact absurd (by rw [← hD.oHem]; exact hg.hem) (hno lat mlt rfl)

theorem dualNorm_total {P : PairRun} {r : ℤ} {D : DualObj} {O E : Rec} (hA : P.At r D O E) (hs : ∀ x y, (P.store r x y).WF D)
    (a m height : V) : ∃ v, dualNorm P r a m height = .ok v := by
  obtain ⟨out, s', h1, h2⟩ := C35_piecewise hA.2 (P.store r a m) (hs a m) (P.fresh r a m) [(entry a, entry m)] false
  cases h2 with
  | cons h3 h4 => exact ⟨_, by simp only [dualNorm, hA.select, h1, bind, Except.bind]; rfl⟩

theorem cell_unique {o : Out} {k : Name} {i : ℕ} {v w : V} (h1 : Cell o k i v) (h2 : Cell o k i w) : v = w := by
  obtain ⟨c, e1, rfl⟩ := h1
  obtain ⟨d, e2, rfl⟩ := h2
  rw [e1, Option.some.injEq] at e2
  rw [e2]

/-! ## Theorems -/

variable {c : Cycler} {good : ℤ → Prop}

/-- C215: when `add_ocb_to_data` adds the columns of a `DualBoundary` to a table with magnetic coordinates, a row with a
finite location either is blank, or there is a usable pair within the tolerance (a nearest one, for rows and pairs in order)
such that, if the meridian of the row crosses both boundaries in order, the new coordinates place the row relative to both
boundaries of that pair and lead back to its location. -/
theorem C215_rows (P : PairRun) (vect : ℤ → ℕ → V → V → Init → Except PyErr (Name → V))
    (hb : IsBoundary c good) (rec : ℤ) (h0 : -1 ≤ rec) (tol : ℤ) (htol : 0 ≤ tol) (t : Table)
    (n : Names) (height : Height) (loc vec : Name) (h : ℤ) (hP : PairsOk c P h) (b : Name)
    (p : Plan) (o : Out) (hp : plan t.vars n = .ok p) (hn : (written n p b).Nodup)
    (ho : addOcb (dualLib P vect) c rec tol t n height loc vec h b = .ok (some o)) (i : ℕ) (lat mlt : ℝ)
    (hlat : t.cell n.mlat i = .fin lat) (hmlt : t.cell n.mlt i = .fin mlt) :
    (∃ r D O E, Cand good rec r ∧ RowClose c t tol i r ∧ P.At r D O E ∧
        (∀ ρo ρe, GoodPt O E lat mlt ρo ρe → ∃ L M rc, Cell o (under n.mlat b) i (.fin L) ∧
          Cell o (under n.mlt b) i (.fin M) ∧ Cell o (under "r_corr".toList b) i (.fin rc) ∧
          Between D O ρo ρe lat mlt L M rc) ∧
        ((∀ a b, a ≤ b → b < t.rows → t.time a ≤ t.time b) → StrictOn c.times (Cand good rec) →
          ∀ k, Cand good rec k → RowNearer c t i r k)) ∨
      (Blank o i ∧
        ((∀ a b, a ≤ b → b < t.rows → t.time a ≤ t.time b) → NondecOn c.times (Cand good rec) →
          i ∈ usedRows t n.mlat p.need h → ∀ k, Cand good rec k → ¬ RowClose c t tol i k)) := by
  rcases C94_rows (dualLib P vect) hb rec h0 tol htol t n height loc vec h b p o hp hn ho i with
    ⟨r, hu, hc, hcl, ⟨hgt, v, -, f2, f3, f4, f5, -, -, -⟩, hne⟩ | hbl
  · left
    obtain ⟨tr, htr, -⟩ := id hcl
    obtain ⟨D, O, E, g1, g4⟩ := hP.2 r tr htr
    refine ⟨r, D, O, E, hc, hcl, g1, fun ρo ρe hg => ?_, hne⟩
    obtain ⟨L, M, rc, k1, k2⟩ := dualNorm_between g1 g4 hg hgt
    have f2 : dualNorm P r (t.cell n.mlat i) (t.cell n.mlt i) hgt = .ok v := f2
    rw [hlat, hmlt, k1, Except.ok.injEq] at f2
    subst f2
    exact ⟨L, M, rc, f3, f4, f5, k2⟩
  · exact .inr hbl

/-- What the loop does to the variables of any row of a dual boundary: the radii are those of the polar cap. -/
theorem dual_scaled (P : PairRun) (vect : ℤ → ℕ → V → V → Init → Except PyErr (Name → V))
    (hb : IsBoundary c good) (rec : ℤ) (h0 : -1 ≤ rec) (tol : ℤ) (htol : 0 ≤ tol) (t : Table)
    (n : Names) (height : Height) (loc vec : Name) (h : ℤ) (hP : PairsOk c P h) (b : Name)
    (p : Plan) (o : Out) (hp : plan t.vars n = .ok p) (hn : (written n p b).Nodup)
    (ho : addOcb (dualLib P vect) c rec tol t n height loc vec h b = .ok (some o)) (i : ℕ) (lat mlt : ℝ)
    (hlat : t.cell n.mlat i = .fin lat) (hmlt : t.cell n.mlt i = .fin mlt) :
    (∃ r D O E, Cand good rec r ∧ RowClose c t tol i r ∧ P.At r D O E ∧
      (∀ x y, (P.store r x y).WF D) ∧
      ∀ ρo ρe, GoodPt O E lat mlt ρo ρe → (∃ hgt v, dualNorm P r (.fin lat) (.fin mlt) hgt = .ok v ∧
          Cell o (under n.mlat b) i v.1 ∧ Cell o (under "r_corr".toList b) i v.2.2) ∧
        (∀ e ∈ p.evars, ∀ x, t.cell e i = .fin x → Cell o (under e b) i (.fin (x * ((O.r + O.rf mlt) / (90 - |P.obj.ocbLat|))))) ∧
        ∀ e ∈ p.curls, ∀ x, t.cell e i = .fin x →
          Cell o (under e b) i (.fin (x * ((O.r + O.rf mlt) / (90 - |P.obj.ocbLat|)) ^ 2))) ∨
      Blank o i := by
  rcases C94_rows (dualLib P vect) hb rec h0 tol htol t n height loc vec h b p o hp hn ho i with
    ⟨r, hu, hc, hcl, ⟨hgt, v, -, f2, f3, f4, f5, -, f7, f8⟩, hne⟩ | hbl
  · left
    obtain ⟨tr, htr, -⟩ := id hcl
    obtain ⟨D, O, E, g1, g4⟩ := hP.2 r tr htr
    refine ⟨r, D, O, E, hc, hcl, g1, g4, fun ρo ρe hg => ?_⟩
    obtain ⟨L, M, rc, k1, k2⟩ := dualNorm_between g1 g4 hg hgt
    have f2 : dualNorm P r (t.cell n.mlat i) (t.cell n.mlt i) hgt = .ok v := f2
    rw [hlat, hmlt] at f2
    refine ⟨⟨hgt, v, f2, f3, f5⟩, ?_⟩
    rw [k1, Except.ok.injEq] at f2
    subst f2
    have hrad : (dualLib P vect).radius r (.fin rc) = .fin (O.r + O.rf mlt) := by
      simp only [dualLib, ocbRadius, ocbRec_eq g1, entry, k2.corr]
    refine ⟨fun e he x hx => ?_, fun e he x hx => ?_⟩
    · obtain ⟨w, w1, w2⟩ := f7 e he
      rw [hrad, hx] at w1
      simp only [dualLib, ocbScale, entry, Except.ok.injEq] at w1
      rw [← w1, Ocb.Scale.normalEvar, mul_div_assoc] at w2
      exact w2
    · obtain ⟨w, w1, w2⟩ := f8 e he
      rw [hrad, hx] at w1
      simp only [dualLib, ocbScale, entry, Except.ok.injEq] at w1
      rw [← w1, Ocb.Scale.normalCurlEvar] at w2
      exact w2
  · exact .inr hbl.1

/-- C216, for rows in the polar cap: the variables are scaled with the radii that `calc_r` gives.  Missing: the rows between
the boundaries and equatorward of them, for which it is false (`C216_refuted`). -/
theorem C216_polar_partial (P : PairRun) (vect : ℤ → ℕ → V → V → Init → Except PyErr (Name → V))
    (hb : IsBoundary c good) (rec : ℤ) (h0 : -1 ≤ rec) (tol : ℤ) (htol : 0 ≤ tol) (t : Table)
    (n : Names) (height : Height) (loc vec : Name) (h : ℤ) (hP : PairsOk c P h) (b : Name)
    (p : Plan) (o : Out) (hp : plan t.vars n = .ok p) (hn : (written n p b).Nodup)
    (ho : addOcb (dualLib P vect) c rec tol t n height loc vec h b = .ok (some o)) (i : ℕ) (lat mlt : ℝ)
    (hlat : t.cell n.mlat i = .fin lat) (hmlt : t.cell n.mlt i = .fin mlt) :
    (∃ r D O E, Cand good rec r ∧ RowClose c t tol i r ∧ P.At r D O E ∧
      ∀ ρo ρe, ρo < ρe → GoodPt O E lat mlt ρo ρe → 90 - ρo ≤ |lat| → RegionScaled D t n p b o i mlt) ∨
      Blank o i := by
  rcases dual_scaled P vect hb rec h0 tol htol t n height loc vec h hP b p o hp hn ho i lat mlt hlat hmlt with
    ⟨r, D, O, E, hc, hcl, g1, g4, hall⟩ | hbl
  · left
    refine ⟨r, D, O, E, hc, hcl, g1, fun ρo ρe hρ hg hpol => ?_⟩
    obtain ⟨⟨hgt, v, f2, f3, f5⟩, hev, hcu⟩ := hall ρo ρe hg
    obtain ⟨L, M, rc, k1, k2⟩ := dualNorm_between g1 g4 hg hgt
    rw [k1, Except.ok.injEq] at f2
    subst f2
    refine ⟨L, rc, f3, f5, fun s ref ow hs href => ?_⟩
    obtain ⟨x, L2, M2, s', t', α, β, q1, q2, -, -, q5, -, -⟩ :=
      C39_radii g1.2 (P.store r (.fin lat) (.fin mlt)) (g4 _ _) false ow (P.fresh r (.fin lat) (.fin mlt)) ref lat mlt ρo ρe hρ hg s hs href
    have k3 : dualNorm P r (.fin lat) (.fin mlt) hgt = .ok (.fin (D.hem * x), .fin M2, .fin (O.rf mlt)) := by
      simp only [dualNorm, g1.select, entry, q1, bind, Except.bind, ofEntry]
    rw [k1] at k3
    simp only [Except.ok.injEq, Prod.mk.injEq, Fl.fin.injEq] at k3
    obtain ⟨rfl, -, rfl⟩ := k3
    obtain ⟨rfl, rfl⟩ := q5 hpol
    rw [(select_same g1.select).2.2.1] at q2
    exact ⟨_, _, t', q2, hev, hcu⟩
  · exact .inr hbl

theorem dual_holding {P : PairRun} {r : ℤ} {D : DualObj} {O E : Rec} (hA : P.At r D O E) {times : List Tod}
    (ht : times.length = P.obj.ocbInd.length) (s : DStore) (fresh : ℕ) (hem : ℤ) :
    Holding (dualBnd D s fresh hem times) r D.ocbRecInd O := by
  obtain ⟨e1, -, -, -, -, e6, -⟩ := select_same hA.select
  have h0 := hA.2.sel.pos
  have h1 := hA.2.sel.lt
  have h2 := hA.2.sel.oInd
  rw [e1] at h0 h1 h2
  rw [DualObj.records, e6, ← ht] at h1
  have hlt : r.toNat < times.length := by omega
  have hm : ∀ {α : Type} (g : Rec → α), pyIdx (D.ocbRecs.map g) D.ocbRecInd = .ok (g O) := fun g =>
    pyIdx_of hA.2.sel.oPos (by rw [List.getElem?_map, hA.2.sel.oRec]; rfl)
  exact ⟨e1, ⟨times[r.toNat], pyIdx_of h0 (List.getElem?_eq_getElem hlt)⟩, pyIdx_of h0 h2, hm Rec.r, hm Rec.phiCent, hm Rec.rCent⟩

theorem dualVect_ok {lower : String → String} (hlow : lower "magnetic" = "magnetic")
    (conv : VD → Arr Tod → ℤ → Except PyErr VD) (user : ℕ → F → F → F → F) {times : List Tod} {P : PairRun}
    (ht : times.length = P.obj.ocbInd.length) {r : ℤ} {D : DualObj} {O E : Rec} (hA : P.At r D O E) {lat mlt x y z s : ℝ} {f : Fn}
    (hgen : General O lat mlt x y) (hf : Factor f ((O.r + O.rf mlt) / (90 - |P.obj.ocbLat|)) s) {L M : ℝ} {d : Init} {hv : V}
    (hd : RowDict d hv L M (O.rf mlt) x y z f) (i : ℕ) :
    ∃ res, dualVect lower conv user 1 times P r i (.fin lat) (.fin mlt) d = .ok res ∧
      Turned O P.obj.ocbLat lat mlt x y z s fun a v => res a = v := by
  have hlatE := (select_same hA.select).2.2.1
  have hf' : Factor f ((O.r + O.rf mlt) / (90 - |(dualBnd D (P.store r (.fin lat) (.fin mlt)) (P.fresh r (.fin lat) (.fin mlt)) 1 times).blat|)) s := by
    change Factor f ((O.r + O.rf mlt) / (90 - |D.ocbLat|)) s
    rw [hlatE]
    exact hf
  obtain ⟨res', q3, q4⟩ := vectWith_ok hlow conv user (dual_holding hA ht (P.store r (.fin lat) (.fin mlt)) (P.fresh r (.fin lat) (.fin mlt)) 1) hgen hf'
    hd i
  have q4 : Turned O D.ocbLat lat mlt x y z s fun a v => res' a = v := q4
  rw [hlatE] at q4
  refine ⟨res', ?_, q4⟩
  simp only [dualVect, hA.select, bind, Except.bind]
  exact q3

/-- C217: when `add_ocb_to_data` adds the columns of a northern `DualBoundary` to a table with magnetic locations and vectors,
a row with a finite location either is blank, or there is a usable pair within the tolerance (a nearest one, for rows and
pairs in order) such that, if the meridian of the row crosses both boundaries in order, the new columns of each vector hold,
in all three regions, the components towards the centre of the open-closed boundary of this pair and to the right of it and
the vertical one, times the ratio of its corrected radius and its reference radius (squared for curls), their magnitude, and
the two radii. -/
theorem C217_rows (lower : String → String) (hlow : lower "magnetic" = "magnetic")
    (conv : VD → Arr Tod → ℤ → Except PyErr VD) (user : ℕ → F → F → F → F) (times : List Tod) (P : PairRun)
    (ht : times.length = P.obj.ocbInd.length) (hb : IsBoundary c good) (rec : ℤ) (h0 : -1 ≤ rec) (tol : ℤ) (htol : 0 ≤ tol) (t : Table)
    (n : Names) (height : Height) (hP : PairsOk c P 1) (b : Name) (p : Plan) (o : Out) (hp : plan t.vars n = .ok p)
    (hn : (written n p b).Nodup)
    (ho : addOcb (dualLib P (dualVect lower conv user 1 times P)) c rec tol t n height "magnetic".toList "magnetic".toList 1 b =
      .ok (some o))
    (i : ℕ) (lat mlt : ℝ) (hlat : t.cell n.mlat i = .fin lat) (hmlt : t.cell n.mlt i = .fin mlt) :
    (∃ r D O E, Cand good rec r ∧ RowClose c t tol i r ∧ P.At r D O E ∧
        (∀ ρo ρe, GoodPt O E lat mlt ρo ρe → ∀ j e entries f x y z s, p.vects[j]? = some (e, entries) →
          (∀ v ∈ p.vects.take j, ∀ k ∈ v.2.map Prod.fst, k ∈ entries.map Prod.fst) → Vector t i entries f x y z →
          General O lat mlt x y → Factor f ((O.r + O.rf mlt) / (90 - |P.obj.ocbLat|)) s →
          Turned O P.obj.ocbLat lat mlt x y z s fun a v => Cell o (keySet b e a) i v) ∧
        ((∀ a b, a ≤ b → b < t.rows → t.time a ≤ t.time b) → StrictOn c.times (Cand good rec) →
          ∀ k, Cand good rec k → RowNearer c t i r k)) ∨
      (Blank o i ∧
        ((∀ a b, a ≤ b → b < t.rows → t.time a ≤ t.time b) → NondecOn c.times (Cand good rec) →
          i ∈ usedRows t n.mlat p.need 1 → ∀ k, Cand good rec k → ¬ RowClose c t tol i k)) := by
  rcases C94_rows (dualLib P (dualVect lower conv user 1 times P)) hb rec h0 tol htol t n height _ _ 1 b p o hp hn ho i with
    ⟨r, hu, hc, hcl, ⟨hgt, v, -, f2, -, -, -, f6, -, -⟩, hne⟩ | hbl
  · left
    obtain ⟨tr, htr, -⟩ := id hcl
    obtain ⟨D, O, E, g1, g4⟩ := hP.2 r tr htr
    refine ⟨r, D, O, E, hc, hcl, g1, fun ρo ρe hg j e entries f x y z s hj hk hv hgen hf => ?_, hne⟩
    obtain ⟨L, M, rc, k1, k2⟩ := dualNorm_between g1 g4 hg hgt
    have f2 : dualNorm P r (t.cell n.mlat i) (t.cell n.mlt i) hgt = .ok v := f2
    rw [hlat, hmlt, k1, Except.ok.injEq] at f2
    subst f2
    obtain rfl := k2.corr
    have hown := C90_own_partial t i (default (.fin L) (.fin M) (.fin (O.rf mlt)) hgt "magnetic".toList "magnetic".toList) p.vects j e
      entries hj hk
    obtain ⟨res, q1, q2⟩ := f6 _ (List.mem_of_getElem? hown)
    obtain ⟨res', q3, q4⟩ := dualVect_ok hlow conv user ht g1 hgen hf (dict_own hv L M (O.rf mlt) hgt) i
    have q1 : dualVect lower conv user 1 times P r i (t.cell n.mlat i) (t.cell n.mlt i) _ = .ok res := q1
    rw [hlat, hmlt, q3, Except.ok.injEq] at q1
    subst q1
    obtain ⟨a1, a2, a3, a4, a5, a6⟩ := q4
    exact ⟨a1 ▸ q2 _ (by decide), a2 ▸ q2 _ (by decide), a3 ▸ q2 _ (by decide), a4 ▸ q2 _ (by decide), a5 ▸ q2 _ (by decide),
      a6 ▸ q2 _ (by decide)⟩
  · exact .inr hbl

/-- C217: `add_ocb_to_data` returns the columns for a northern `DualBoundary` and a table with vectors, if each row used has a
meridian that crosses both boundaries of each pair and vectors in general position. -/
theorem C217_succeeds (lower : String → String) (hlow : lower "magnetic" = "magnetic")
    (conv : VD → Arr Tod → ℤ → Except PyErr VD) (user : ℕ → F → F → F → F) (times : List Tod) (P : PairRun)
    (ht : times.length = P.obj.ocbInd.length) (hb : IsBoundary c good) (rec : ℤ) (h0 : -1 ≤ rec) (tol : ℤ) (htol : 0 ≤ tol) (t : Table)
    (n : Names) (hgt : ℕ → V) (hP : PairsOk c P 1) (k : Kind) (p : Plan) (hp : plan t.vars n = .ok p)
    (hn : (written n p (bname k)).Nodup) (hv : ∀ e ∈ p.evars ++ p.curls, e ∈ t.vars)
    (hc : ∀ v ∈ p.vects, Clean v.1)
    (hs : ∀ e ∈ [n.mlat, n.mlt, "r_corr".toList] ++ p.evars ++ p.curls, e ∉ p.vects.map Prod.fst)
    (hT : ∀ a b, a ≤ b → b < t.rows → t.time a ≤ t.time b) (hN : NondecOn c.times (Cand good rec))
    (hr : c.times ≠ []) (hno : ¬ NoOverlap c good rec ((usedRows t n.mlat p.need 1).map t.time) tol)
    (hg : ∀ i ∈ usedRows t n.mlat p.need 1, ∃ lat mlt, t.cell n.mlat i = .fin lat ∧ t.cell n.mlt i = .fin mlt ∧
      (∀ r D O E, P.At r D O E → ∃ ρo ρe, GoodPt O E lat mlt ρo ρe) ∧
      ∀ j e entries, p.vects[j]? = some (e, entries) →
        (∀ v ∈ p.vects.take j, ∀ k ∈ v.2.map Prod.fst, k ∈ entries.map Prod.fst) ∧
        ∃ f x y z, (f = .evar ∨ f = .curl) ∧ Vector t i entries f x y z ∧
          ∀ r D O E, P.At r D O E → General O lat mlt x y) :
    ∃ o, addOcb (dualLib P (dualVect lower conv user 1 times P)) c rec tol t n (.column hgt) "magnetic".toList "magnetic".toList 1
      (bname k) = .ok (some o) := by
  refine rows_succeed _ (fun f x y => ocbScale_total P.obj.ocbLat f x y) hb rec h0 tol htol t n hgt _ _ 1 k p hp hn hv hc hs hT hN hr hno ?_
  intro i hmem r tr htr hgt0 _
  obtain ⟨lat, mlt, hlat, hmlt, hgood, hvec⟩ := hg i hmem
  obtain ⟨D, O, E, g1, g4⟩ := hP.2 r tr htr
  obtain ⟨ρo, ρe, hpt⟩ := hgood r D O E g1
  obtain ⟨L, M, rc, k1, k2⟩ := dualNorm_between g1 g4 hpt hgt0
  obtain rfl := k2.corr
  refine ⟨(.fin L, .fin M, .fin (O.rf mlt)), ?_, fun v hv => ?_⟩
  · simp only [hlat, hmlt]
    exact k1
  · obtain ⟨j, hj, e, entries, hje⟩ := inits_at hv
    obtain ⟨hk, f, x, y, z, hf, hV, hG⟩ := hvec j e entries hje
    have hown := C90_own_partial t i
      (default (.fin L) (.fin M) (.fin (O.rf mlt)) hgt0 "magnetic".toList "magnetic".toList) p.vects j e entries hje hk
    have hve := hj.symm.trans hown
    simp only [Option.some.injEq] at hve
    subst hve
    obtain ⟨s, hs⟩ : ∃ s, Factor f ((O.r + O.rf mlt) / (90 - |P.obj.ocbLat|)) s := by
      rcases hf with rfl | rfl
      · exact ⟨_, .evar _⟩
      · exact ⟨_, .curl _⟩
    obtain ⟨res, q3, -⟩ := dualVect_ok hlow conv user ht g1 (hG r D O E g1) hs (dict_own hV L M (O.rf mlt) hgt0) i
    simp only [hlat, hmlt]
    exact ⟨res, q3⟩

/-! ## Instances -/

/-- The pair of C35, with nothing stored -/
noncomputable def exPairs : PairRun := ⟨exDual, fun _ _ _ => ⟨fun _ => [], none, none, none, none⟩, fun _ _ _ => 0⟩

/-- A location in the polar cap and one equatorward of the EAB, at the local time 6, with a potential -/
def exCapTable : Table :=
  { vars := ["lat".toList, "mlt".toList, "phi".toList], rows := 2
    cell := fun k i => if k = "lat".toList then (if i = 0 then .fin 80 else .fin 30) else .fin 6
    time := fun i => i }

def exCapNames : Names := ⟨"lat".toList, "mlt".toList, ["phi".toList], [], []⟩

def exCapPlan : Plan := ⟨["phi".toList], [], [], ["lat".toList, "mlt".toList, "phi".toList]⟩

noncomputable def exDualLib : Lib := dualLib exPairs fun _ _ _ _ _ => .ok fun _ => .fin 2

theorem exAt : exPairs.At 0 exDual exRec exEab := ⟨rfl, exDual_ok⟩

theorem exPair_unique {r : ℤ} {D : DualObj} {O E : Rec} (h : exPairs.At r D O E) : D = exDual ∧ O = exRec ∧ E = exEab := by
  obtain ⟨e1, -, -, -, -, e6, -⟩ := select_same h.select
  have h1 := h.2.sel.pos
  have h2 := h.2.sel.lt
  rw [DualObj.records, e6] at h2
  simp only [exPairs, exDual, List.length_cons, List.length_nil] at h2
  obtain rfl : r = 0 := by omega
  have hD : exDual = D := Except.ok.inj (exAt.select.symm.trans h.select)
  subst hD
  have h3 := exDual_ok.sel.oRec.symm.trans h.2.sel.oRec
  have h4 := exDual_ok.sel.eRec.symm.trans h.2.sel.eRec
  simp only [Option.some.injEq] at h3 h4
  exact ⟨rfl, h3.symm, h4.symm⟩

theorem exNorm_total (r : ℤ) (a m hgt : V) : ∃ v, dualNorm exPairs r a m hgt = .ok v := by
  by_cases h0 : r = 0
  · subst h0
    exact dualNorm_total exAt (fun _ _ => exStore_wf) a m hgt
  · have hr : exPairs.obj.records = 1 := rfl
    rcases lt_or_gt_of_ne h0 with h | h
    · refine ⟨(.nan, .nan, .nan), ?_⟩
      simp only [dualNorm, selectPair, if_pos h, bind, Except.bind, dualNormal, if_pos (Or.inl h)]
      rfl
    · have h1 : exPairs.obj.records ≤ r := by omega
      refine ⟨(.nan, .nan, .nan), ?_⟩
      simp only [dualNorm, selectPair, if_neg (not_lt.2 h.le), if_pos h1, bind, Except.bind, dualNormal]
      rw [if_pos (.inr h1)]
      rfl

theorem exDualLib_total : Total exDualLib := by
  refine ⟨exNorm_total, fun _ _ _ _ _ => ⟨_, rfl⟩, fun f x y => ?_⟩
  simp only [exDualLib, dualLib, ocbScale]
  split
  · exact ⟨_, rfl⟩
  · exact ⟨_, rfl⟩

theorem exPairs_ok : PairsOk (dualCycler [0]) exPairs 1 := by
  refine ⟨by simp [exPairs, exDual], fun r tr ⟨h1, h2⟩ => ?_⟩
  obtain rfl : r = 0 := by
    match hk : r.toNat, h2 with
    | 0, _ => omega
    | m + 1, h2 => simp [dualCycler] at h2
  exact ⟨exDual, exRec, exEab, exAt, fun _ _ => exStore_wf⟩

theorem exCapUsed : usedRows exCapTable exCapNames.mlat exCapPlan.need 1 = [0, 1] := by
  have h : ∀ i, rowUsed exCapTable exCapNames.mlat exCapPlan.need 1 i = true := by
    intro i
    have a1 : ¬ (80 : ℝ) ≤ 6 := by norm_num
    have a2 : ¬ (30 : ℝ) ≤ 6 := by norm_num
    by_cases hi : i = 0 <;>
      simp [rowUsed, exCapTable, exCapPlan, exCapNames, hi, a1, a2, signIs, sgn, rowMax, skipMax, isFin, Fl.le]
  rw [usedRows]
  have : List.range exCapTable.rows = [0, 1] := rfl
  rw [this]
  simp [h]

theorem exCap : ∃ o, addOcb exDualLib (dualCycler [0]) 0 60 exCapTable exCapNames (.column fun _ => .fin 0) [] [] 1 (bname .dual) =
    .ok (some o) ∧ ∀ i < 2, ¬ Blank o i := by
  have hb : IsBoundary (dualCycler [0]) (fun _ => True) := .dual [0] (by simp)
  have hp : plan exCapTable.vars exCapNames = .ok exCapPlan := by decide
  have hn : (written exCapNames exCapPlan (bname .dual)).Nodup := by decide +kernel
  have hT : ∀ a b, a ≤ b → b < exCapTable.rows → exCapTable.time a ≤ exCapTable.time b := by
    intro a b hab _
    simp only [exCapTable]
    omega
  have h1 : ∀ k t, At [0] k t → k = 0 ∧ t = 0 := by
    intro k t ⟨hk, ht⟩
    match hk' : k.toNat, ht with
    | 0, ht => simp at ht; omega
    | m + 1, ht => simp at ht
  have hN : NondecOn (dualCycler [0]).times (Cand (fun _ => True) 0) := by
    intro a b s t _ _ _ hs ht
    have := h1 a s hs
    have := h1 b t ht
    omega
  obtain ⟨o, ho⟩ := C94_succeeds exDualLib exDualLib_total hb 0
    (by decide) 60 (by decide) exCapTable exCapNames (fun _ => .fin 0) [] [] 1 .dual exCapPlan hp hn (by decide +kernel)
    (by simp [exCapPlan]) (by simp [exCapPlan]) hT hN (by simp [dualCycler]) (by
      rw [exCapUsed]
      rintro ⟨-, ⟨h, -⟩ | ⟨-, h⟩⟩
      · simp at h
      · have := h 0 0 0 ⟨le_rfl, rfl⟩ ⟨le_rfl, .inl rfl⟩ (by simp [exCapTable])
        omega)
  refine ⟨o, ho, fun i hi hbl => ?_⟩
  have hlat : exCapTable.cell exCapNames.mlat i = .fin (if i = 0 then 80 else 30) := by
    simp only [exCapTable, exCapNames, if_true]
    split <;> rfl
  have hmlt : exCapTable.cell exCapNames.mlt i = .fin 6 := by
    simp only [exCapTable, exCapNames]
    exact if_neg (by decide +kernel)
  rcases C215_rows exPairs _ hb 0 (by decide) 60 (by decide) exCapTable exCapNames (.column fun _ => .fin 0) [] [] 1 exPairs_ok
    (bname .dual) exCapPlan o hp hn ho i _ 6 hlat hmlt with ⟨r, D, O, E, -, -, hO, hall, -⟩ | ⟨-, hc⟩
  · obtain ⟨rfl, rfl, rfl⟩ := exPair_unique hO
    obtain ⟨L, M, rc, ⟨cc, c1, c2⟩, -⟩ := hall 21 31 (exGood _ (by split <;> norm_num) (by split <;> norm_num))
    rw [hbl _ cc c1] at c2
    cases c2
  · refine hc hT hN (by rw [exCapUsed]; simp; omega) 0 ⟨le_rfl, .inl rfl⟩ ⟨0, ⟨le_rfl, rfl⟩, ?_⟩
    simp only [exCapTable]
    rw [abs_of_nonneg (by omega)]
    omega

theorem exCapRow (i : ℕ) : exCapTable.cell exCapNames.mlat i = .fin (if i = 0 then 80 else 30) ∧
    exCapTable.cell exCapNames.mlt i = .fin 6 ∧ exCapTable.cell "phi".toList i = .fin 6 := by
  refine ⟨?_, ?_, ?_⟩
  · simp only [exCapTable, exCapNames, if_true]
    split <;> rfl
  · simp only [exCapTable, exCapNames]
    exact if_neg (by decide +kernel)
  · simp only [exCapTable]
    exact if_neg (by decide +kernel)

/-- The hypotheses of `C215_rows` and `C216_polar_partial` hold: the row at 80 degrees is placed poleward of the OCB, the
row at 30 degrees equatorward of the EAB at 30 times 64 / 59, and the potential of the first is scaled with the radii of its
region. -/
example : ∃ o, addOcb exDualLib (dualCycler [0]) 0 60 exCapTable exCapNames (.column fun _ => .fin 0) [] [] 1 (bname .dual) =
    .ok (some o) ∧ (∃ L M, Cell o (under "lat".toList (bname .dual)) 0 (.fin L) ∧ Between exDual exRec 21 31 80 6 L M 0 ∧ 74 ≤ |L|) ∧
    (∃ L M, Cell o (under "lat".toList (bname .dual)) 1 (.fin L) ∧ Between exDual exRec 21 31 30 6 L M 0 ∧ |L| = 64 / 59 * 30) ∧
    RegionScaled exDual exCapTable exCapNames exCapPlan (bname .dual) o 0 6 := by
  obtain ⟨o, ho, hne⟩ := exCap
  have hb : IsBoundary (dualCycler [0]) (fun _ => True) := .dual [0] (by simp)
  have hp : plan exCapTable.vars exCapNames = .ok exCapPlan := by decide
  have hn : (written exCapNames exCapPlan (bname .dual)).Nodup := by decide +kernel
  have hrow := fun i => C215_rows exPairs _ hb 0 (by decide) 60 (by decide) exCapTable exCapNames (.column fun _ => .fin 0) [] [] 1
    exPairs_ok (bname .dual) exCapPlan o hp hn ho i _ 6 (exCapRow i).1 (exCapRow i).2.1
  have hsc := C216_polar_partial exPairs _ hb 0 (by decide) 60 (by decide) exCapTable exCapNames (.column fun _ => .fin 0) [] [] 1
    exPairs_ok (bname .dual) exCapPlan o hp hn ho 0 80 6 (exCapRow 0).1 (exCapRow 0).2.1
  refine ⟨o, ho, ?_, ?_, ?_⟩
  · rcases hrow 0 with ⟨r, D, O, E, -, -, hO, hall, -⟩ | ⟨hbl, -⟩
    · obtain ⟨rfl, rfl, rfl⟩ := exPair_unique hO
      obtain ⟨L, M, rc, c1, -, -, c4⟩ := hall 21 31 (exGood _ (by norm_num) (by norm_num))
      obtain rfl : rc = 0 := c4.corr
      refine ⟨L, M, c1, c4, ?_⟩
      have := c4.polar.1 (by norm_num)
      change |(74 : ℝ)| ≤ |L| at this
      rwa [abs_of_pos (by norm_num)] at this
    · exact absurd hbl (hne 0 (by norm_num))
  · rcases hrow 1 with ⟨r, D, O, E, -, -, hO, hall, -⟩ | ⟨hbl, -⟩
    · obtain ⟨rfl, rfl, rfl⟩ := exPair_unique hO
      obtain ⟨L, M, rc, c1, -, -, c4⟩ := hall 21 31 (exGood _ (by norm_num) (by norm_num))
      obtain rfl : rc = 0 := c4.corr
      refine ⟨L, M, c1, c4, ?_⟩
      have := c4.lowLinear (by norm_num)
      change |L| = |(64 : ℝ)| / (90 - 31) * |(30 : ℝ)| at this
      rw [this, abs_of_pos (by norm_num), abs_of_pos (by norm_num)]
      norm_num
    · exact absurd hbl (hne 1 (by norm_num))
  · rcases hsc with ⟨r, D, O, E, -, -, hO, hall⟩ | hbl
    · obtain ⟨rfl, rfl, rfl⟩ := exPair_unique hO
      exact hall 21 31 (by norm_num) (exGood _ (by norm_num) (by norm_num)) (by norm_num)
    · exact absurd hbl (hne 0 (by norm_num))

/-- C216 is false: a row equatorward of the EAB is scaled with the radii of the polar cap, here 16 over 16, where `calc_r` gives
59 over 64 for the coordinates of the row. -/
theorem C216_refuted : ∃ (P : PairRun) (t : Table) (n : Names) (p : Plan) (D : DualObj) (O E : Rec) (vect : ℤ → ℕ → V → V → Init → Except PyErr (Name → V))
    (o : Out) (lat mlt : ℝ), PairsOk (dualCycler [0]) P 1 ∧ plan t.vars n = .ok p ∧ (written n p (bname .dual)).Nodup ∧
    addOcb (dualLib P vect) (dualCycler [0]) 0 60 t n (.column fun _ => .fin 0) [] [] 1 (bname .dual) = .ok (some o) ∧
    t.cell n.mlat 1 = .fin lat ∧ t.cell n.mlt 1 = .fin mlt ∧ P.At 0 D O E ∧ (∃ ρo ρe, ρo < ρe ∧ GoodPt O E lat mlt ρo ρe) ∧
    ¬ Blank o 1 ∧ ¬ RegionScaled D t n p (bname .dual) o 1 mlt := by
  obtain ⟨o, ho, hne⟩ := exCap
  have hb : IsBoundary (dualCycler [0]) (fun _ => True) := .dual [0] (by simp)
  have hp : plan exCapTable.vars exCapNames = .ok exCapPlan := by decide
  have hn : (written exCapNames exCapPlan (bname .dual)).Nodup := by decide +kernel
  have hg : GoodPt exRec exEab 30 6 21 31 := exGood _ (by norm_num) (by norm_num)
  refine ⟨exPairs, exCapTable, exCapNames, exCapPlan, exDual, exRec, exEab, _, o, 30, 6, exPairs_ok, hp, hn, ho, (exCapRow 1).1,
    (exCapRow 1).2.1, exAt, ⟨21, 31, by norm_num, hg⟩, hne 1 (by norm_num), ?_⟩
  rintro ⟨L, rc, k1, k2, k3⟩
  rcases dual_scaled exPairs _ hb 0 (by decide) 60 (by decide) exCapTable exCapNames (.column fun _ => .fin 0) [] [] 1
    exPairs_ok (bname .dual) exCapPlan o hp hn ho 1 30 6 (exCapRow 1).1 (exCapRow 1).2.1 with
    ⟨r, D, O, E, -, -, hO, -, hall⟩ | hbl
  · obtain ⟨rfl, rfl, rfl⟩ := exPair_unique hO
    obtain ⟨⟨hgt, v, f2, f3, f5⟩, hev, -⟩ := hall 21 31 hg
    have hwf : (⟨fun _ => [some 6], none, none, none, none⟩ : DStore).WF exDual :=
      ⟨⟨by simp [DStore.ocb], by simp [DStore.ocb]⟩, ⟨by simp [DStore.eab], by simp [DStore.eab]⟩,
        ⟨by simp [DStore.ocb], by simp [DStore.ocb, Store.slot, Store.slotMlt]⟩,
        ⟨by simp [DStore.eab], by simp [DStore.eab, Store.slot, Store.slotMlt]⟩⟩
    obtain ⟨x, L2, M2, s', t', α, β, q1, q2, -, -, -, -, q7⟩ :=
      C39_radii exDual_ok _ exStore_wf false false 0 0 30 6 21 31 (by norm_num) hg _ hwf rfl
    have e : dualNorm exPairs r (.fin 30) (.fin 6) hgt = .ok (.fin (exDual.hem * x), .fin M2, .fin (exRec.rf 6)) := by
      have q1' : dualNormal exDual (exPairs.store r (.fin 30) (.fin 6)) (exPairs.fresh r (.fin 30) (.fin 6))
          [(entry (.fin 30), entry (.fin 6))] false = .ok ([(some (exDual.hem * x), some M2, some L2, some (exRec.rf 6))], s') := q1
      simp only [dualNorm, hO.select, q1', bind, Except.bind, ofEntry]
    rw [f2, Except.ok.injEq] at e
    subst e
    have e1 := cell_unique k1 f3
    have e2 := cell_unique k2 f5
    simp only [Fl.fin.injEq] at e1 e2
    subst e1 e2
    obtain ⟨α', β', s2, w1, w2, -⟩ := k3 _ 0 false hwf rfl
    change Coord.calcR exDual _ _ _ _ = _ at w1
    rw [q2] at w1
    simp only [Except.ok.injEq, Prod.mk.injEq, List.cons.injEq, Option.some.injEq, and_true] at w1
    obtain ⟨⟨rfl, rfl⟩, -⟩ := w1
    obtain ⟨rfl, rfl⟩ := q7 (by norm_num)
    have v1 := w2 "phi".toList (by simp [exCapPlan]) 6 (exCapRow 1).2.2
    have v2 := hev "phi".toList (by simp [exCapPlan]) 6 (exCapRow 1).2.2
    have := cell_unique v1 v2
    simp only [Fl.fin.injEq] at this
    change (6 : ℝ) * ((90 - 31) / |(64 : ℝ)|) = 6 * ((16 + 0) / (90 - |(74 : ℝ)|)) at this
    rw [abs_of_pos (by norm_num), abs_of_pos (by norm_num)] at this
    norm_num at this
  · exact hne 1 (by norm_num) hbl

/-- The meridian of the local time 1 crosses both circles of the example in order. -/
theorem exGood1 : ∃ ρo ρe, GoodPt exRec exEab 1 1 ρo ρe := by
  have o1 : |exRec.rCent| < exRec.r + exRec.rf 1 := by norm_num [exRec]
  have e1 : |exEab.rCent| < exEab.r + exEab.rf 1 := by norm_num [exEab]
  obtain ⟨ρo, o0, -, o2⟩ := C29_pole_inside exRec 1 o1
  obtain ⟨ρe, e0, -, e2⟩ := C29_pole_inside exEab 1 e1
  have mo : ρo ∈ Crossings exRec 1 := by rw [o2]; rfl
  have me : ρe ∈ Crossings exEab 1 := by rw [e2]; rfl
  obtain ⟨p0, p1⟩ := mo
  obtain ⟨q0, q1⟩ := me
  simp only [polarDist2, exRec, exEab] at p1 q1
  generalize hkk : Real.cos (hourAngle 1 - 90 * Real.pi / 180) = k at p1 q1
  have hk : k ≤ 1 := hkk ▸ Real.cos_le_one _
  have hρ : 10 * k < ρo := by
    by_contra h
    nlinarith
  refine ⟨ρo, ρe, (sign_hem 1 (by norm_num)).1, by norm_num, o1, e1, o2, e2, ?_, ?_⟩
  · by_contra h
    nlinarith [mul_pos (sub_pos.2 (not_le.1 h)) (add_pos_of_pos_of_nonneg (sub_pos.2 hρ) q0)]
  · by_contra h
    nlinarith

/-- The hypotheses of `C217_rows` and `C217_succeeds` hold for the table of C94 and the pair of C35: the first row is
equatorward of both boundaries, and its vector 1 towards the magnetic pole is turned towards the centre of the OCB and scaled
by 16 / 16. -/
example : ∃ o, addOcb (dualLib exPairs (dualVect id (fun _ _ _ => .error .valueError) (fun _ x _ _ => x) 1 [⟨0, 0, 0, 0⟩] exPairs))
    (dualCycler [0]) 0 60 exTable exNames (.column fun _ => .fin 0) "magnetic".toList "magnetic".toList 1 (bname .dual) = .ok (some o) ∧
    Turned exRec 74 1 1 1 0 0 1 fun a v => Cell o (keySet (bname .dual) "vel".toList a) 0 v := by
  have hb : IsBoundary (dualCycler [0]) (fun _ => True) := .dual [0] (by simp)
  have hp : plan exTable.vars exNames = .ok exPlan := by decide
  have hn : (written exNames exPlan (bname .dual)).Nodup := by decide +kernel
  have hT : ∀ a b, a ≤ b → b < exTable.rows → exTable.time a ≤ exTable.time b := by
    intro a b hab _
    simp only [exTable]
    omega
  have h1 : ∀ k t, At [0] k t → k = 0 ∧ t = 0 := by
    intro k t ⟨hk, ht⟩
    match hk' : k.toNat, ht with
    | 0, ht => simp at ht; omega
    | m + 1, ht => simp at ht
  have hN : NondecOn (dualCycler [0]).times (Cand (fun _ => True) 0) := by
    intro a b s t _ _ _ hs ht
    have := h1 a s hs
    have := h1 b t ht
    omega
  have hj : ∀ j e entries, exPlan.vects[j]? = some (e, entries) → j = 0 ∧
      entries = [("vect_n".toList, .text "vn".toList), ("scale_func".toList, .fn .evar)] := by
    intro j e entries h
    match j, h with
    | 0, h =>
      simp only [exPlan, List.getElem?_cons_zero, Option.some.injEq, Prod.mk.injEq] at h
      exact ⟨rfl, h.2.symm⟩
    | j + 1, h => simp [exPlan] at h
  obtain ⟨o, ho⟩ := C217_succeeds id rfl (fun _ _ _ => .error .valueError) (fun _ x _ _ => x) [⟨0, 0, 0, 0⟩] exPairs rfl hb 0
    (by decide) 60 (by decide) exTable exNames (fun _ => .fin 0) exPairs_ok .dual exPlan hp hn (by decide)
    (by unfold Clean; decide) (by decide) hT hN (by simp [dualCycler]) (by
      rw [exUsed]
      rintro ⟨-, ⟨h, -⟩ | ⟨-, h⟩⟩
      · simp at h
      · have := h 0 0 0 ⟨le_rfl, rfl⟩ ⟨le_rfl, .inl rfl⟩ (by simp [exTable])
        omega) (fun i _ => ⟨1, 1, rfl, rfl, fun r D O E h => by
          obtain ⟨rfl, rfl, rfl⟩ := exPair_unique h
          exact exGood1, fun j e entries h => by
          obtain ⟨rfl, rfl⟩ := hj j e entries h
          refine ⟨by simp, .evar, 1, 0, 0, .inl rfl, exVector i, fun r D O E h => ?_⟩
          obtain ⟨rfl, rfl, rfl⟩ := exPair_unique h
          exact exGeneral⟩)
  refine ⟨o, ho, ?_⟩
  rcases C217_rows id rfl (fun _ _ _ => .error .valueError) (fun _ x _ _ => x) [⟨0, 0, 0, 0⟩] exPairs rfl hb 0 (by decide) 60
    (by decide) exTable exNames (.column fun _ => .fin 0) exPairs_ok (bname .dual) exPlan o hp hn ho 0 1 1 rfl rfl with
    ⟨r, D, O, E, -, -, hA, hv, -⟩ | ⟨-, hc⟩
  · obtain ⟨rfl, rfl, rfl⟩ := exPair_unique hA
    obtain ⟨ρo, ρe, hpt⟩ := exGood1
    refine hv ρo ρe hpt 0 "vel".toList _ .evar 1 0 0 1 rfl (by simp) (exVector 0) exGeneral ?_
    have e : (exRec.r + exRec.rf 1) / (90 - |exPairs.obj.ocbLat|) = 1 := by
      simp only [exPairs, exDual]
      rw [abs_of_pos (by norm_num)]
      norm_num [exRec]
    rw [e]
    exact .evar 1
  · exact absurd ⟨0, ⟨le_rfl, rfl⟩, by simp [exTable]⟩
      (hc hT hN (by rw [exUsed]; simp) 0 ⟨le_rfl, .inl rfl⟩)

end Ocb.Pysat

namespace Ocb.XData

open Ocb.Files (Name)
open Ocb.Grid
open Ocb.Cycle
open Ocb.Coord
open Ocb.Time (Tod)
open Ocb.Pysat (V Lib Names Plan plan under PairRun PairsOk Between dualLib dualNorm dualNorm_between exPairs exPairs_ok exPair_unique
  exDualLib exDualLib_total Vector General Factor Turned keySet patch dualVect dualVect_ok dict_own)

variable {c : Cycler} {good : ℤ → Prop}

/-- C215: the coordinates place the cells of a set with named dimensions in the same way, in the layouts of C210. -/
theorem C215_cells (P : PairRun)
    (vect : ℤ → ℕ → V → V → Ocb.Pysat.Init → Except PyErr (Name → V)) (hb : IsBoundary c good) (rec : ℤ) (h0 : -1 ≤ rec) (tol : ℤ)
    (htol : 0 ≤ tol) (S : XSet) (n : Names) (hgt : Height) (lc vc : Name) (h : ℤ) (hh : h = 1 ∨ h = -1)
    (hP : PairsOk c P h) (b : Name) (p : Plan) (base extra : List Name)
    (hp : plan (S.vars ++ S.coords) n = .ok p) (hs : Sound S p.need)
    (hl : Layout S n.mlat n.mlt p.need hgt base extra)
    (hk : (Ocb.Pysat.written n p b).Nodup) (out : Name → Arr V)
    (ho : addX (dualLib P vect) c rec tol S n hgt lc vc h b = .ok (some out)) (σ : Name → ℕ)
    (hσ : ∀ d ∈ base ++ extra, σ d < S.len d) (lat mlt : ℝ) (hlat : cell S n.mlat σ = .fin lat) (hmlt : cell S n.mlt σ = .fin mlt) :
    (∃ r D O E, Cand good rec r ∧ TimeClose c S tol (σ S.index) r ∧ P.At r D O E ∧
      (∀ ρo ρe, GoodPt O E lat mlt ρo ρe → ∃ L M rc,
        (out (under n.mlat b)).val ((base ++ extra).map σ) = .fin L ∧
        (out (under n.mlt b)).val ((base ++ extra).map σ) = .fin M ∧
        (out (under "r_corr".toList b)).val ((base ++ extra).map σ) = .fin rc ∧
        Between D O ρo ρe lat mlt L M rc) ∧
      (S.time.Pairwise (· ≤ ·) → StrictOn c.times (Cand good rec) →
        ∀ k, Cand good rec k → TimeNearer c S (σ S.index) r k)) ∨
    ((∀ k, (out k).val ((base ++ extra).map σ) = .nan) ∧
      (S.time.Pairwise (· ≤ ·) → NondecOn c.times (Cand good rec) → Chosen S n.mlat p.need h σ →
        ∀ k, Cand good rec k → ¬ TimeClose c S tol (σ S.index) k)) := by
  rcases (C210_cells_partial (dualLib P vect) hb rec h0 tol htol S n hgt lc vc h hh b p base extra hp hs hl hk out ho).2 σ hσ with
    ⟨r, v, -, hc, hcl, f2, f3, f4, f5, hne⟩ | hbl
  · left
    obtain ⟨ti, tr, -, htr, -⟩ := id hcl
    obtain ⟨D, O, E, g1, g4⟩ := hP.2 r tr htr
    refine ⟨r, D, O, E, hc, hcl, g1, fun ρo ρe hg => ?_, hne⟩
    obtain ⟨L, M, rc, k1, k2⟩ := dualNorm_between g1 g4 hg (heightAt S hgt σ)
    have f2 : dualNorm P r (cell S n.mlat σ) (cell S n.mlt σ) (heightAt S hgt σ) = .ok v := f2
    rw [hlat, hmlt, k1, Except.ok.injEq] at f2
    subst f2
    exact ⟨L, M, rc, f3, f4, f5, k2⟩
  · exact .inr hbl

/-- C216, for the cells of a set in the polar cap, in the layouts of C211: the variables are scaled with the radii that `calc_r`
gives for the dual coordinates of the cell.  Missing: the other cells, as for tables. -/
theorem C216_cells_partial (P : PairRun)
    (vect : ℤ → ℕ → V → V → Ocb.Pysat.Init → Except PyErr (Name → V)) (hb : IsBoundary c good) (rec : ℤ) (h0 : -1 ≤ rec) (tol : ℤ)
    (htol : 0 ≤ tol) (S : XSet) (n : Names) (hgt : Height) (lc vc : Name) (h : ℤ) (hh : h = 1 ∨ h = -1)
    (hP : PairsOk c P h) (b : Name) (p : Plan) (base extra : List Name)
    (hp : plan (S.vars ++ S.coords) n = .ok p) (hs : Sound S p.need)
    (hl : Layout S n.mlat n.mlt p.need hgt base extra) (hord : InOrder S n.mlt p.need (base ++ extra))
    (hk : (Ocb.Pysat.written n p b).Nodup)
    (he : ∀ e ∈ p.evars ++ p.curls, e ∈ S.vars ∧ S.index ∈ (S.arr e).dims ∧
      (base ++ extra).filter (· ∈ (S.arr e).dims) <+: base ++ extra) (out : Name → Arr V)
    (ho : addX (dualLib P vect) c rec tol S n hgt lc vc h b = .ok (some out)) (σ : Name → ℕ)
    (hσ : ∀ d ∈ base ++ extra, σ d < S.len d) (lat mlt : ℝ) (hlat : cell S n.mlat σ = .fin lat) (hmlt : cell S n.mlt σ = .fin mlt) :
    (∃ r D O E, Cand good rec r ∧ TimeClose c S tol (σ S.index) r ∧ P.At r D O E ∧
      ∀ ρo ρe, ρo < ρe → GoodPt O E lat mlt ρo ρe → 90 - ρo ≤ |lat| → ∃ L M rc, Between D O ρo ρe lat mlt L M rc ∧
        (out (under "r_corr".toList b)).val ((base ++ extra).map σ) = .fin rc ∧
        ∀ (s : DStore) (ref : ℕ) (ow : Bool), s.WF D → s.heap ref = [some mlt] →
          ∃ α β s', calcR D s [(some L, some rc)] ref ow = .ok ([(some α, some β)], s') ∧
            (∀ e ∈ p.evars, ∀ x, cell S e σ = .fin x → (out (under e b)).val ((base ++ extra).map σ) = .fin (x * (β / α))) ∧
            ∀ e ∈ p.curls, ∀ x, cell S e σ = .fin x → (out (under e b)).val ((base ++ extra).map σ) = .fin (x * (β / α) ^ 2)) ∨
    ∀ k, (out k).val ((base ++ extra).map σ) = .nan := by
  rcases C211_scaled_partial (dualLib P vect) hb rec h0 tol htol S n hgt lc vc h hh b p base extra hp hs hl hord hk he out ho σ hσ with
    ⟨r, v, -, hc, hcl, f2, f5, f7, f8⟩ | hbl
  · left
    obtain ⟨ti, tr, -, htr, -⟩ := id hcl
    obtain ⟨D, O, E, g1, g4⟩ := hP.2 r tr htr
    refine ⟨r, D, O, E, hc, hcl, g1, fun ρo ρe hρ hg hpol => ?_⟩
    obtain ⟨L, M, rc, k1, k2⟩ := dualNorm_between g1 g4 hg (heightAt S hgt σ)
    have f2 : dualNorm P r (cell S n.mlat σ) (cell S n.mlt σ) (heightAt S hgt σ) = .ok v := f2
    rw [hlat, hmlt, k1, Except.ok.injEq] at f2
    subst f2
    refine ⟨L, M, rc, k2, f5, fun s ref ow hs href => ?_⟩
    obtain ⟨x, L2, M2, s', t', α, β, q1, q2, -, -, q5, -, -⟩ :=
      C39_radii g1.2 (P.store r (.fin lat) (.fin mlt)) (g4 _ _) false ow (P.fresh r (.fin lat) (.fin mlt)) ref lat mlt ρo ρe hρ hg s hs href
    have k3 : dualNorm P r (.fin lat) (.fin mlt) (heightAt S hgt σ) = .ok (.fin (D.hem * x), .fin M2, .fin (O.rf mlt)) := by
      simp only [dualNorm, g1.select, Ocb.Pysat.entry, q1, bind, Except.bind, Ocb.Pysat.ofEntry]
    rw [k1] at k3
    simp only [Except.ok.injEq, Prod.mk.injEq, Fl.fin.injEq] at k3
    obtain ⟨rfl, -, rfl⟩ := k3
    obtain ⟨rfl, rfl⟩ := q5 hpol
    rw [(Ocb.Pysat.select_same g1.select).2.2.1] at q2
    have hrad : (dualLib P vect).radius r (.fin (O.rf mlt)) = .fin (O.r + O.rf mlt) := by
      simp only [dualLib, Ocb.Pysat.ocbRadius, Ocb.Pysat.ocbRec_eq g1, Ocb.Pysat.entry]
    refine ⟨_, _, t', q2, fun e he x hx => ?_, fun e he x hx => ?_⟩
    · obtain ⟨w, w1, w2⟩ := f7 e he
      rw [hrad, hx] at w1
      simp only [dualLib, Ocb.Pysat.ocbScale, Ocb.Pysat.entry, Except.ok.injEq] at w1
      rw [w2, ← w1, Ocb.Scale.normalEvar, mul_div_assoc]
    · obtain ⟨w, w1, w2⟩ := f8 e he
      rw [hrad, hx] at w1
      simp only [dualLib, Ocb.Pysat.ocbScale, Ocb.Pysat.entry, Except.ok.injEq] at w1
      rw [w2, ← w1, Ocb.Scale.normalCurlEvar]
  · exact .inr hbl

/-- The hypotheses of `C215_cells` and `C216_cells_partial` hold for the set of C210 with one pair at its time: its second latitude, 71, is poleward
of the OCB, which the meridian of the local time 6 crosses at 69 degrees, and its variable, 10, is scaled with the radii of the polar cap. -/
example : ∃ out, addX exDualLib (dualCycler [0]) 0 60 (exSet ["t".toList, "lat".toList, "z".toList]) exNames
    (.scalar (.fin 0)) [] [] 1 "dualb".toList = .ok (some out) ∧
    ∃ L M, (out (under "lat".toList "dualb".toList)).val [0, 1, 0] = .fin L ∧
      (out (under "lt".toList "dualb".toList)).val [0, 1, 0] = .fin M ∧ Between exDual exRec 21 31 71 6 L M 0 ∧
      ∃ α β s', calcR exDual ⟨fun _ => [some 6], none, none, none, none⟩ [(some L, some 0)] 0 false = .ok ([(some α, some β)], s') ∧
        (out (under "e".toList "dualb".toList)).val [0, 1, 0] = .fin (10 * (β / α)) := by
  set ds := ["t".toList, "lat".toList, "z".toList] with hds
  have hds' : ds = ["t".toList, "z".toList, "lat".toList] ∨ ds = ["t".toList, "lat".toList, "z".toList] := .inr hds
  have hb : IsBoundary (dualCycler [0]) (fun _ => True) := .dual [0] (by simp)
  obtain ⟨hN, hord, hch, hin, hus0, fe1, fe2⟩ := exFacts ds hds
  obtain ⟨a1, a2, a3, a4, a5⟩ := exArr ds
  have hp := exPlan_eq ds
  have he : ∀ e ∈ exNames.evars ++ exNames.curls, e ∈ (exSet ds).vars ∧ (exSet ds).index ∈ ((exSet ds).arr e).dims ∧
      (["t".toList, "lat".toList] ++ ["z".toList]).filter (· ∈ ((exSet ds).arr e).dims) <+: ["t".toList, "lat".toList] ++ ["z".toList] := by
    intro e hes
    change e ∈ ["e".toList] at hes
    rw [List.mem_singleton] at hes
    subst hes
    refine ⟨?_, fe1, fe2⟩
    change "e".toList ∈ ["lt".toList, "e".toList]
    decide +kernel
  obtain ⟨out, ho⟩ := C211_succeeds exDualLib exDualLib_total hb 0
    (by decide) 60 (by decide) (exSet ds) exNames (.scalar (.fin 0)) [] [] 1 (.inl rfl) "dualb".toList exPlan _ _ hp rfl (exSound ds hds')
    (exLayout ds hds' _) hord (by decide +kernel) he (by simp [exSet]) (fun _ τ _ _ _ _ => hch τ) hN (by simp [dualCycler]) (by
      rintro ⟨-, ⟨hx, -⟩ | ⟨-, hx⟩⟩
      · omega
      · have := hx 0 0 0 ⟨le_rfl, rfl⟩ ⟨le_rfl, .inl rfl⟩ hus0
        omega)
  have n3 : ¬ "z".toList = "lat".toList := by decide +kernel
  have n6 : ¬ "t".toList = "lat".toList := by decide +kernel
  let σ : Name → ℕ := fun d => if d = "lat".toList then 1 else 0
  have s1 : σ "t".toList = 0 := if_neg n6
  have s2 : σ "lat".toList = 1 := if_pos rfl
  have s3 : σ "z".toList = 0 := if_neg n3
  have hσ := hin σ s1 (by omega) (by omega)
  have hlat : cell (exSet ds) exNames.mlat σ = .fin 71 := by
    change cell (exSet ds) "lat".toList σ = .fin 71
    rw [cell, a2]
    simp only [List.map_cons, List.map_nil, s2]
    norm_num
  have hmlt : cell (exSet ds) exNames.mlt σ = .fin 6 := by
    change cell (exSet ds) "lt".toList σ = .fin 6
    rw [cell, a4]
  have hix : (["t".toList, "lat".toList] ++ ["z".toList]).map σ = [0, 1, 0] := by
    change [σ "t".toList, σ "lat".toList, σ "z".toList] = [0, 1, 0]
    rw [s1, s2, s3]
  have hcell := C215_cells exPairs _ hb 0 (by decide) 60 (by decide) (exSet ds) exNames (.scalar (.fin 0)) [] [] 1
    (.inl rfl) exPairs_ok "dualb".toList exPlan _ _ hp (exSound ds hds') (exLayout ds hds' _) (by decide +kernel) out ho σ hσ 71 6
    hlat hmlt
  have hsc := C216_cells_partial exPairs _ hb 0 (by decide) 60 (by decide) (exSet ds) exNames (.scalar (.fin 0)) [] [] 1
    (.inl rfl) exPairs_ok "dualb".toList exPlan _ _ hp (exSound ds hds') (exLayout ds hds' _) hord (by decide +kernel) he out ho σ hσ 71 6
    hlat hmlt
  have hecell : cell (exSet ds) "e".toList σ = .fin 10 := by
    rw [cell, a5, hds]
    simp only [List.map_cons, List.map_nil, s1, s2, s3]
    norm_num
  rw [hix] at hcell hsc
  refine ⟨out, ho, ?_⟩
  rcases hcell with ⟨r, D, O, E, -, -, hO, hall, -⟩ | ⟨-, hc⟩
  · obtain ⟨rfl, rfl, rfl⟩ := exPair_unique hO
    obtain ⟨L, M, rc, c1, c2, -, c4⟩ := hall 21 31 (exGood _ (by norm_num) (by norm_num))
    obtain rfl : rc = 0 := c4.corr
    refine ⟨L, M, c1, c2, c4, ?_⟩
    rcases hsc with ⟨r, D, O, E, -, -, hO, hall⟩ | hnan
    · obtain ⟨rfl, rfl, rfl⟩ := exPair_unique hO
      obtain ⟨L', M', rc, k2, -, k3⟩ := hall 21 31 (by norm_num) (exGood _ (by norm_num) (by norm_num)) (by norm_num [abs_of_pos])
      obtain rfl : rc = 0 := k2.corr
      obtain ⟨N, N1, N2⟩ := c4.ocb
      obtain ⟨N', N1', N2'⟩ := k2.ocb
      have hpol : (90 : ℝ) - 21 ≤ |(71 : ℝ)| := by norm_num [abs_of_pos]
      obtain rfl : L = L' := by
        rw [N1] at N1'
        simp only [Except.ok.injEq, Prod.mk.injEq] at N1'
        rw [N2 hpol, N2' hpol, N1'.1]
      obtain ⟨α, β, s', m1, m2, -⟩ := k3 ⟨fun _ => [some 6], none, none, none, none⟩ 0 false
        ⟨⟨by simp [DStore.ocb], by simp [DStore.ocb]⟩, ⟨by simp [DStore.eab], by simp [DStore.eab]⟩,
          ⟨by simp [DStore.ocb], by simp [DStore.ocb, Store.slot, Store.slotMlt]⟩,
          ⟨by simp [DStore.eab], by simp [DStore.eab, Store.slot, Store.slotMlt]⟩⟩ rfl
      exact ⟨α, β, s', m1, m2 "e".toList (by change "e".toList ∈ ["e".toList]; simp) 10 hecell⟩
    · rw [hnan] at c1
      cases c1
  · exfalso
    refine hc (by change [(0 : ℤ)].Pairwise (· ≤ ·); simp) hN (hch σ) 0 ⟨le_rfl, .inl rfl⟩ ⟨0, 0, ?_, ⟨le_rfl, rfl⟩, by simp⟩
    change [(0 : ℤ)][σ "t".toList]? = some 0
    rw [s1]
    rfl

/-- C217: the vector attributes of a set with named dimensions hold the same for each cell whose meridian crosses both
boundaries, in the layouts of C212, with the location and the components that have the labels of the cell.  The library is
that of a `DualBoundary` (`agrees_self`) or returns what this one returns. -/
theorem C217_cells (lower : String → String) (hlow : lower "magnetic" = "magnetic")
    (conv : Ocb.Scale.VD → Ocb.Scale.Arr Tod → ℤ → Except PyErr Ocb.Scale.VD)
    (user : ℕ → Ocb.Scale.F → Ocb.Scale.F → Ocb.Scale.F → Ocb.Scale.F) (times : List Tod) (P : PairRun)
    (ht : times.length = P.obj.ocbInd.length) (L : Lib) (hL : Agrees L (dualLib P (dualVect lower conv user 1 times P)))
    (hb : IsBoundary c good) (rec : ℤ) (h0 : -1 ≤ rec) (tol : ℤ) (htol : 0 ≤ tol) (S : XSet)
    (n : Names) (hgt : Height) (hP : PairsOk c P 1) (b : Name) (p : Plan) (base extra : List Name)
    (hp : plan (S.vars ++ S.coords) n = .ok p) (hs : Sound S p.need)
    (hl : Layout S n.mlat n.mlt p.need hgt base extra) (hord : InOrder S n.mlt p.need (base ++ extra))
    (hk : (Ocb.Pysat.written n p b).Nodup)
    (hx : ∀ v ∈ p.vects, ∀ k ∈ v.2, ∀ x, k.2 = .text x → x ∈ S.vars ++ S.coords → FitIn S (base ++ extra) x)
    (out : Name → Arr V)
    (ho : addX L c rec tol S n hgt "magnetic".toList "magnetic".toList 1 b = .ok (some out)) (σ : Name → ℕ)
    (hσ : ∀ d ∈ base ++ extra, σ d < S.len d) (lat mlt : ℝ) (hlat : cell S n.mlat σ = .fin lat) (hmlt : cell S n.mlt σ = .fin mlt) :
    (∃ r D O E, Chosen S n.mlat p.need 1 σ ∧ Cand good rec r ∧ TimeClose c S tol (σ S.index) r ∧ P.At r D O E ∧
      ∀ ρo ρe, GoodPt O E lat mlt ρo ρe →
        ∀ (j : ℕ) (e : Name) (entries : List (Name × Ocb.Pysat.Arg)) f x y z s, p.vects[j]? = some (e, entries) →
          (∀ v ∈ p.vects.take j, ∀ k ∈ v.2.map Prod.fst, k ∈ entries.map Prod.fst) → Vector (rowAt S σ) 0 entries f x y z →
          General O lat mlt x y → Factor f ((O.r + O.rf mlt) / (90 - |P.obj.ocbLat|)) s →
          Turned O P.obj.ocbLat lat mlt x y z s fun a v => (out (keySet b e a)).val ((base ++ extra).map σ) = v) ∨
    ∀ k, (out k).val ((base ++ extra).map σ) = .nan := by
  rcases C212_vectors_partial L hb rec h0 tol htol S n hgt _ _ 1 (.inl rfl) b p base extra hp hs hl hord hk hx out ho σ hσ with
    ⟨r, v, hch, hc, hcl, f2, -, f6⟩ | hbl
  · left
    obtain ⟨ti, tr, -, htr, -⟩ := id hcl
    obtain ⟨D, O, E, g1, g4⟩ := hP.2 r tr htr
    refine ⟨r, D, O, E, hch, hc, hcl, g1, fun ρo ρe hpt j e entries f x y z s hj hk hv hg hf => ?_⟩
    obtain ⟨L', M, rc, k1, k2⟩ := dualNorm_between g1 g4 hpt (heightAt S hgt σ)
    have k1' := hL.norm r (.fin lat) (.fin mlt) (heightAt S hgt σ) _ k1
    rw [hlat, hmlt, k1', Except.ok.injEq] at f2
    subst f2
    obtain rfl := k2.corr
    have hown := Ocb.Pysat.C90_own_partial (rowAt S σ) 0
      (Ocb.Pysat.default (.fin L') (.fin M) (.fin (O.rf mlt)) (heightAt S hgt σ) "magnetic".toList "magnetic".toList) p.vects j e entries hj hk
    obtain ⟨res, q1, q2⟩ := f6 _ (List.mem_of_getElem? hown)
    obtain ⟨res', q3, q4⟩ := dualVect_ok hlow conv user ht g1 hg hf (dict_own hv L' M (O.rf mlt) (heightAt S hgt σ)) (σ S.index)
    have q3' := hL.vect r (σ S.index) (.fin lat) (.fin mlt) _ _ q3
    rw [hlat, hmlt, q3', Except.ok.injEq] at q1
    subst q1
    obtain ⟨a1, a2, a3, a4, a5, a6⟩ := q4
    exact ⟨a1 ▸ q2 _ (by decide), a2 ▸ q2 _ (by decide), a3 ▸ q2 _ (by decide), a4 ▸ q2 _ (by decide), a5 ▸ q2 _ (by decide),
      a6 ▸ q2 _ (by decide)⟩
  · exact .inr hbl

/-- The EAB around `exMidnight` -/
noncomputable def exMidEab : Rec := ⟨0, 5, 26, fun _ => 0, 1, 64⟩

/-- The pair is the second OCB record with the first EAB record. -/
noncomputable def exMidDual : DualObj := ⟨[exRec, exMidnight], [exMidEab], [1], [0], 0, 1, 0, 1, 74, 64⟩

theorem exMidDual_ok : PairOk exMidDual exMidnight exMidEab := by
  refine ⟨⟨by simp [exMidDual], by simp [exMidDual, DualObj.records], rfl, rfl, by simp [exMidDual], by simp [exMidDual], rfl, rfl⟩,
    ⟨.inl rfl, by norm_num [exMidnight], ?_⟩, ⟨.inl rfl, by norm_num [exMidEab], ?_⟩, fun _ => rfl, fun _ => rfl, rfl, rfl, rfl, rfl,
    by norm_num [exMidDual], by norm_num [exMidDual]⟩
  · rw [abs_lt]; constructor <;> norm_num [exMidnight]
  · rw [abs_lt]; constructor <;> norm_num [exMidEab]

noncomputable def exMidPairs : PairRun := ⟨exMidDual, fun _ _ _ => ⟨fun _ => [], none, none, none, none⟩, fun _ _ _ => 0⟩

theorem exMidAt : exMidPairs.At 0 exMidDual exMidnight exMidEab := ⟨rfl, exMidDual_ok⟩

theorem exMidStore_wf : (⟨fun _ => [], none, none, none, none⟩ : DStore).WF exMidDual :=
  ⟨⟨by simp [DStore.ocb], by simp [DStore.ocb]⟩, ⟨by simp [DStore.eab], by simp [DStore.eab]⟩,
    ⟨by simp [DStore.ocb], by simp [DStore.ocb, Store.slot, Store.slotMlt]⟩,
    ⟨by simp [DStore.eab], by simp [DStore.eab, Store.slot, Store.slotMlt]⟩⟩

theorem exMidPairs_ok : PairsOk (dualCycler [0]) exMidPairs 1 := by
  refine ⟨by simp [exMidPairs, exMidDual], fun r tr hr => ?_⟩
  obtain ⟨rfl, -⟩ := exOne r tr hr
  exact ⟨exMidDual, exMidnight, exMidEab, exMidAt, fun _ _ => exMidStore_wf⟩

theorem exMid_unique {D : DualObj} {O E : Rec} (h : exMidPairs.At 0 D O E) : D = exMidDual ∧ O = exMidnight ∧ E = exMidEab := by
  have hD : exMidDual = D := Except.ok.inj (exMidAt.select.symm.trans h.select)
  subst hD
  have h3 := exMidDual_ok.sel.oRec.symm.trans h.2.sel.oRec
  have h4 := exMidDual_ok.sel.eRec.symm.trans h.2.sel.eRec
  simp only [Option.some.injEq] at h3 h4
  exact ⟨rfl, h3.symm, h4.symm⟩

/-- At the local time 6 the circles are crossed at the colatitudes √231 and √651. -/
theorem exMidGood : ∃ ρo ρe, GoodPt exMidnight exMidEab 71 6 ρo ρe := by
  have o1 : |exMidnight.rCent| < exMidnight.r + exMidnight.rf 6 := by norm_num [exMidnight]
  have e1 : |exMidEab.rCent| < exMidEab.r + exMidEab.rf 6 := by norm_num [exMidEab]
  obtain ⟨ρo, o0, -, o2⟩ := C29_pole_inside exMidnight 6 o1
  obtain ⟨ρe, e0, -, e2⟩ := C29_pole_inside exMidEab 6 e1
  have mo : ρo ∈ Crossings exMidnight 6 := by rw [o2]; rfl
  have me : ρe ∈ Crossings exMidEab 6 := by rw [e2]; rfl
  obtain ⟨p0, p1⟩ := mo
  obtain ⟨q0, q1⟩ := me
  have hk : Real.cos (hourAngle 6 - 0 * Real.pi / 180) = 0 := by
    rw [show hourAngle 6 - 0 * Real.pi / 180 = Real.pi / 2 by unfold hourAngle; ring]
    exact Real.cos_pi_div_two
  simp only [polarDist2, exMidnight, exMidEab, hk] at p1 q1
  refine ⟨ρo, ρe, (sign_hem 71 (by norm_num)).1, by norm_num [abs_of_pos], o1, e1, o2, e2, ?_, ?_⟩
  · by_contra h
    nlinarith
  · by_contra h
    nlinarith

noncomputable def exMidLib : Lib :=
  dualLib exMidPairs (dualVect id (fun _ _ _ => .error .valueError) (fun _ x _ _ => x) 1 [⟨0, 0, 0, 0⟩] exMidPairs)

/-- The hypotheses of `C217_cells` hold for the set of C212 and one pair at time 0: the vector of length 10 at the second
latitude and the first altitude is turned towards the centre of the OCB. -/
example : ∃ out, addX (patch (exMidLib)) (dualCycler [0]) 0 60
    (exSet ["t".toList, "lat".toList, "z".toList]) exVNames (.scalar (.fin 0)) "magnetic".toList "magnetic".toList 1
    (Ocb.Pysat.bname .dual) = .ok (some out) ∧
    Turned exMidnight 74 71 6 10 0 0 1 fun a v => (out (keySet (Ocb.Pysat.bname .dual) "v".toList a)).val [0, 1, 0] = v := by
  set ds := ["t".toList, "lat".toList, "z".toList] with hds
  have hds' : ds = ["t".toList, "z".toList, "lat".toList] ∨ ds = ["t".toList, "lat".toList, "z".toList] := .inr hds
  have hb : IsBoundary (dualCycler [0]) (fun _ => True) := .dual [0] (by simp)
  obtain ⟨hN, hord, hch, hin, hus0, fe1, fe2⟩ := exFacts ds hds
  obtain ⟨a1, a2, a3, a4, a5⟩ := exArr ds
  have hp := exVPlan_eq ds
  have hs : Sound (exSet ds) exVPlan.need := exSound ds hds'
  have hl : Layout (exSet ds) exVNames.mlat exVNames.mlt exVPlan.need (.scalar (.fin 0)) ["t".toList, "lat".toList] ["z".toList] :=
    exLayout ds hds' _
  have hne : exVNames.mlat ≠ exVNames.mlt := by decide +kernel
  obtain ⟨l', hr, -⟩ := ready hp hs hl hne
  have hem : "e".toList ∈ (exSet ds).vars := by
    change "e".toList ∈ ["lt".toList, "e".toList]
    decide +kernel
  have hneed : "e".toList ∈ exVPlan.need := by
    change "e".toList ∈ ["lat".toList, "lt".toList, "e".toList]
    decide +kernel
  have hfit : FitIn (exSet ds) (["t".toList, "lat".toList] ++ ["z".toList]) "e".toList := by
    obtain ⟨u1, -, u3⟩ := hs.arr _ hneed
    exact ⟨u1, hr.sub _ hneed, u3, fe1, fe2⟩
  have hx : ∀ v ∈ exVPlan.vects, ∀ k ∈ v.2, ∀ x, k.2 = .text x → x ∈ (exSet ds).vars ++ (exSet ds).coords →
      FitIn (exSet ds) (["t".toList, "lat".toList] ++ ["z".toList]) x := by
    intro v hv k hk x hkx _
    rw [exVPlan, List.mem_singleton] at hv
    subst hv
    simp only [List.mem_cons, List.not_mem_nil, or_false] at hk
    rcases hk with rfl | rfl
    · simp only [Ocb.Pysat.Arg.text.injEq] at hkx
      rw [← hkx]
      exact hfit
    · simp at hkx
  have hclean : ∀ v ∈ exVPlan.vects, Ocb.Pysat.Clean v.1 := by
    intro v hv
    rw [exVPlan, List.mem_singleton] at hv
    subst hv
    change ¬ ['o', 'c', 'b'] <:+: "v".toList
    decide +kernel
  obtain ⟨out, ho⟩ := C212_succeeds (patch (exMidLib))
    ⟨fun _ _ _ _ => Ocb.Pysat.orElse_total _ _, fun _ _ _ _ _ => Ocb.Pysat.orElse_total _ _,
      fun f x y => Ocb.Pysat.ocbScale_total _ f x y⟩ hb 0
    (by decide) 60 (by decide) (exSet ds) exVNames (.scalar (.fin 0)) "magnetic".toList "magnetic".toList 1 (.inl rfl) .dual exVPlan _ _
    hp hs hl hord hne hclean
    (by decide +kernel) (by simp [exVPlan]) hx ⟨"e".toList, hneed, hem, by decide +kernel⟩ (by simp [exSet])
    (fun _ τ _ _ _ _ => hch τ) hN (by simp [dualCycler]) (by
      rintro ⟨-, ⟨hx, -⟩ | ⟨-, hx⟩⟩
      · omega
      · have := hx 0 0 0 ⟨le_rfl, rfl⟩ ⟨le_rfl, .inl rfl⟩ hus0
        omega)
  refine ⟨out, ho, ?_⟩
  have n1 : ¬ "t".toList = "lat".toList := by decide +kernel
  have n2 : ¬ "z".toList = "lat".toList := by decide +kernel
  obtain ⟨σ, s1, s2, s3⟩ : ∃ σ : Name → ℕ, σ "t".toList = 0 ∧ σ "lat".toList = 1 ∧ σ "z".toList = 0 :=
    ⟨fun d => if d = "lat".toList then 1 else 0, by simp only [if_neg n1], by simp only [if_true], by simp only [if_neg n2]⟩
  have hσ := hin σ s1 (by omega) (by omega)
  have hlat : cell (exSet ds) exVNames.mlat σ = .fin 71 := by
    change cell (exSet ds) "lat".toList σ = .fin 71
    rw [cell, a2]
    simp only [List.map_cons, List.map_nil, s2]
    norm_num
  have hmlt : cell (exSet ds) exVNames.mlt σ = .fin 6 := by
    change cell (exSet ds) "lt".toList σ = .fin 6
    rw [cell, a4]
  have he : cell (exSet ds) "e".toList σ = .fin 10 := by
    rw [cell, a5, hds]
    simp only [List.map_cons, List.map_nil, s1, s2, s3]
    norm_num
  have hix : (["t".toList, "lat".toList] ++ ["z".toList]).map σ = [0, 1, 0] := by
    change [σ "t".toList, σ "lat".toList, σ "z".toList] = [0, 1, 0]
    rw [s1, s2, s3]
  have hval := C217_cells id rfl (fun _ _ _ => .error .valueError) (fun _ x _ _ => x) [⟨0, 0, 0, 0⟩] exMidPairs rfl _ (agrees_patch _) hb 0 (by decide) 60
    (by decide) (exSet ds) exVNames (.scalar (.fin 0)) exMidPairs_ok (Ocb.Pysat.bname .dual) exVPlan _ _ hp hs hl hord (by decide +kernel) hx out ho
    σ hσ 71 6 hlat hmlt
  rw [hix] at hval
  rcases hval with ⟨r, D, O, E, -, -, ⟨ti, tr, -, htr, -⟩, hA, hv⟩ | hnan
  · obtain ⟨rfl, -⟩ := exOne r tr htr
    obtain ⟨rfl, rfl, rfl⟩ := exMid_unique hA
    obtain ⟨ρo, ρe, hpt⟩ := exMidGood
    refine hv ρo ρe hpt 0 "v".toList _ .evar 10 0 0 1 rfl (by simp) ?_ ?_ ?_
    · refine ⟨by decide +kernel, by decide +kernel, by simp, .inl ⟨"e".toList, by simp, List.mem_append_left _ hem, he⟩,
        .inr ⟨by decide +kernel, rfl⟩, .inr ⟨by decide +kernel, rfl⟩⟩
    · refine ⟨by norm_num, fun k hk => ?_, by norm_num, by norm_num [exMidnight]⟩
      have : (-6 : ℝ) = 12 * k := by
        simp only [exMidnight] at hk
        linarith
      have : (-6 : ℤ) = 12 * k := by exact_mod_cast this
      omega
    · have e : (exMidnight.r + exMidnight.rf 6) / (90 - |exMidPairs.obj.ocbLat|) = 1 := by
        simp only [exMidPairs, exMidDual]
        rw [abs_of_pos (by norm_num)]
        norm_num [exMidnight]
      rw [e]
      exact .evar 1
  · exfalso
    have hrec0 := C210_cells_partial (patch (exMidLib)) hb 0 (by decide) 60
      (by decide) (exSet ds) exVNames (.scalar (.fin 0)) "magnetic".toList "magnetic".toList 1
      (.inl rfl) (Ocb.Pysat.bname .dual) exVPlan _ _ hp hs hl (by decide +kernel) out ho
    rcases hrec0.2 σ hσ with ⟨r, v, -, -, ⟨ti, tr, -, htr, -⟩, hv, hv1, -⟩ | ⟨-, hc⟩
    · obtain ⟨rfl, -⟩ := exOne r tr htr
      obtain ⟨ρo, ρe, hpt⟩ := exMidGood
      obtain ⟨L', M, rc, k1, -⟩ := dualNorm_between exMidAt (fun _ _ => exMidStore_wf) hpt (heightAt (exSet ds) (.scalar (.fin 0)) σ)
      have k1' := (agrees_patch (exMidLib)).norm 0 (.fin 71) (.fin 6)
        (heightAt (exSet ds) (.scalar (.fin 0)) σ) _ k1
      rw [hlat, hmlt, k1', Except.ok.injEq] at hv
      subst hv
      rw [hix, hnan] at hv1
      simp at hv1
    · refine hc (by change [(0 : ℤ)].Pairwise (· ≤ ·); simp) hN (hch σ) 0 ⟨le_rfl, .inl rfl⟩ ⟨0, 0, ?_, ⟨le_rfl, rfl⟩, by simp⟩
      change [(0 : ℤ)][σ "t".toList]? = some 0
      rw [s1]
      rfl

end Ocb.XData
