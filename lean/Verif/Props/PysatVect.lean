import Verif.Model.PysatVect
import Verif.Props.PysatOcb
import Verif.Props.SetOcb

/-! # C214: the vectors of a table in the frame of the boundary -/

set_option autoImplicit false

namespace Ocb.Pysat

open Ocb.Files (Name)
open Ocb.Cycle Ocb.Time Ocb.Coord Ocb.Scale Ocb.Vec

/-! ## Specification -/

/-- The component of a vector that belongs to the row: the cell of the column named for it, or 0 if none is named. -/
def Comp (t : Table) (i : ℕ) (entries : List (Name × Arg)) (k : Name) (x : ℝ) : Prop :=
  (∃ col, (k, .text col) ∈ entries ∧ col ∈ t.vars ∧ t.cell col i = .fin x) ∨ (k ∉ entries.map Prod.fst ∧ x = 0)

/-- The factor of a scale function of the package for a ratio of radii -/
inductive Factor : Fn → ℝ → ℝ → Prop where
  | evar (q : ℝ) : Factor .evar q q
  | curl (q : ℝ) : Factor .curl q (q ^ 2)

/-- The keys that a vector may set here: its components, its scale function, its name and units. -/
def plainKeys : List Name :=
  ["vect_n".toList, "vect_e".toList, "vect_z".toList, "scale_func".toList, "dat_name".toList, "dat_units".toList]

/-- A vector of the row: columns of components and a scale function. -/
structure Vector (t : Table) (i : ℕ) (entries : List (Name × Arg)) (f : Fn) (n e z : ℝ) : Prop where
  keys : (entries.map Prod.fst).Nodup
  plain : ∀ k ∈ entries.map Prod.fst, k ∈ plainKeys
  fn : ("scale_func".toList, .fn f) ∈ entries
  north : Comp t i entries "vect_n".toList n
  east : Comp t i entries "vect_e".toList e
  vert : Comp t i entries "vect_z".toList z

/-- The location and the vector are in general position for the circle: not at a pole, off the meridian of its centre,
with a horizontal part; the centre is less than 90 degrees from the magnetic pole. -/
structure General (B : Rec) (lat mlt n e : ℝ) : Prop where
  lat : |lat| < 90
  off : ∀ k : ℤ, B.phiCent / 15 ≠ mlt + 12 * k
  vec : ¬ (n = 0 ∧ e = 0)
  cent : 0 ≤ B.rCent ∧ B.rCent < 90

/-- The six values of a vector in the frame of the boundary: the components towards the centre of the circle and to the
right of it and the vertical one, all times the factor, their magnitude, and the two radii.  `P` says where they are. -/
def Turned (B : Rec) (blat lat mlt n e z s : ℝ) (P : Name → V → Prop) : Prop :=
  P "ocb_n".toList (.fin (s * towards (place lat mlt) (place (90 - B.rCent) (B.phiCent / 15)) (horiz lat mlt n e))) ∧
  P "ocb_e".toList (.fin (s * rightOf (place lat mlt) (place (90 - B.rCent) (B.phiCent / 15)) (horiz lat mlt n e))) ∧
  P "ocb_z".toList (.fin (s * z)) ∧
  P "ocb_mag".toList (.fin (|s| * √(n ^ 2 + e ^ 2 + z ^ 2))) ∧
  P "unscaled_r".toList (.fin (B.r + B.rf mlt)) ∧
  P "scaled_r".toList (.fin (90 - |blat|))

/-! ## Lemmas -/

theorem scaleVector_radii {v w : VD} (h : scaleVector v = .ok w) : w.unscaledR = v.unscaledR ∧ w.scaledR = v.scaledR := by
  unfold scaleVector at h
  split_ifs at h
  simp only [bind, Except.bind, pure, Except.pure] at h
  split at h
  · simp at h
  split at h
  · simp at h
  split at h
  · simp at h
  simp only [Except.ok.injEq] at h
  subst h
  exact ⟨rfl, rfl⟩

theorem pickScale_radii (f : Option (F → F → F → F)) (v : VD) : (pickScale f v).unscaledR = v.unscaledR ∧ (pickScale f v).scaledR = v.scaledR := by
  unfold pickScale
  split <;> exact ⟨rfl, rfl⟩

/-- The radii after `set_ocb` -/
theorem setOcb_radii (conv : VD → Arr Tod → ℤ → Except PyErr VD) (b : Scale.Bnd) (v : VD) (m : ℕ) (ys : ℕ → Pt) (hm : 0 < m)
    (h : Holds v m ys) (hg : ∀ i, i < m → (ys i).Good b) (hr : InRange b m ys) (hl : Located b v m ys)
    (fa : Option (F → F → F → F)) {w : VD} {rec' : ℤ} (hw : setOcb conv b fa v = .ok (w, rec')) :
    (∃ u, w.unscaledR = some u ∧ Reads u m fun i => some ((ys i).r + (ys i).rc)) ∧
      ∃ s, w.scaledR = some s ∧ Reads s m fun _ => some (90 - |b.blat|) := by
  obtain ⟨v1, rec1, f1, f2, f3, f4, f5, f6, f7⟩ := fill_ok hm h hl
  obtain ⟨v2, p1, p2, p3, p4, p5, p6, s, ps, pr⟩ := poleStep_ok hm f2 (fun i hi => (hg i hi).toBase) f3.rc
  obtain ⟨v3, r1, r2, r3, r4, r5, r6, r7, r8⟩ := rotateStep_start hm p2 (fun i hi => (hg i hi).toBase) fa
  obtain ⟨u, u1, u2⟩ := p2.unscaled
  rw [after_fill hm h hr conv fa f1 f3, p1] at hw
  change ((rotateStep fa v2).map fun w => (w, rec1)) = _ at hw
  rw [r1] at hw
  cases hs : scaleVector (pickScale fa v3) with
  | error e => rw [hs] at hw; simp [Except.map] at hw
  | ok w' =>
    rw [hs] at hw
    simp only [Except.map, Except.ok.injEq, Prod.mk.injEq] at hw
    obtain ⟨rfl, -⟩ := hw
    obtain ⟨q1, q2⟩ := scaleVector_radii hs
    obtain ⟨q3, q4⟩ := pickScale_radii fa v3
    exact ⟨⟨u, by rw [q1, q3, r5, u1], u2⟩, s, by rw [q2, q4, r6, ps], pr⟩

theorem reads_cell {a : Arr F} {f : ℕ → F} (h : Reads a 1 f) : cellOf a = .ok (ofEntry (f 0)) := by
  rcases h with ⟨x, rfl, hx⟩ | rfl
  · rw [hx 0 (by omega)]; rfl
  · rfl

theorem mag_scaled {n e z a b s : ℝ} (h : a ^ 2 + b ^ 2 = n ^ 2 + e ^ 2) :
    √((s * a) ^ 2 + (s * b) ^ 2 + (s * z) ^ 2) = |s| * √(n ^ 2 + e ^ 2 + z ^ 2) := by
  rw [show (s * a) ^ 2 + (s * b) ^ 2 + (s * z) ^ 2 = s ^ 2 * (n ^ 2 + e ^ 2 + z ^ 2) by rw [← h]; ring,
    Real.sqrt_mul (sq_nonneg s), Real.sqrt_sq_eq_abs]

theorem idx_at {C : Circles} {r : ℤ} {B : Rec} (h : C.at r = some B) {α : Type} (g : Rec → α) : pyIdx (C.recs.map g) r = .ok (g B) := by
  unfold Circles.at at h
  split_ifs at h with h0
  rw [pyIdx, pyGet, if_pos h0, List.getElem?_map, h]
  rfl

/-- The dictionary of a vector of a row -/
structure RowDict (d : Init) (hv : V) (L M rc n e z : ℝ) (f : Fn) : Prop where
  olat : d "ocb_lat".toList = some (.num (.fin L))
  omlt : d "ocb_mlt".toList = some (.num (.fin M))
  rcorr : d "r_corr".toList = some (.num (.fin rc))
  n : d "vect_n".toList = some (.num (.fin n))
  e : d "vect_e".toList = some (.num (.fin e))
  z : d "vect_z".toList = some (.num (.fin z))
  mag : d "vect_mag".toList = some (.num .nan)
  loc : d "loc_coord".toList = some (.text "magnetic".toList)
  vec : d "vect_coord".toList = some (.text "magnetic".toList)
  height : d "height".toList = some (.num hv)
  fn : d "scale_func".toList = some (.fn f)

/-- The boundary has the circle `B` at its cursor `r`, as its record `j`. -/
structure Holding (b : Scale.Bnd) (r j : ℤ) (B : Rec) : Prop where
  cursor : b.recInd = r
  time : ∃ tt, pyIdx b.dtime r = .ok tt
  sel : Selects b r j
  r : pyIdx b.r j = .ok B.r
  phi : pyIdx b.phiCent j = .ok B.phiCent
  rho : pyIdx b.rCent j = .ok B.rCent

theorem vectWith_ok {lower : String → String} (hlow : lower "magnetic" = "magnetic")
    (conv : VD → Arr Tod → ℤ → Except PyErr VD) (user : ℕ → F → F → F → F) {b : Scale.Bnd} {r j : ℤ} {B : Rec} (hB : Holding b r j B)
    {lat mlt n e z s : ℝ} (hg : General B lat mlt n e) {f : Fn}
    (hf : Factor f ((B.r + B.rf mlt) / (90 - |b.blat|)) s) {L M : ℝ} {d : Init} {hv : V} (hd : RowDict d hv L M (B.rf mlt) n e z f) (i : ℕ) :
    ∃ res, vectWith lower conv user b r i (.fin lat) (.fin mlt) d = .ok res ∧ Turned B b.blat lat mlt n e z s fun a v => res a = v := by
  obtain ⟨g, hgf, hgs⟩ : ∃ g : F → F → F → F, fnOf user d = .ok (some g) ∧
      ∀ x, g (some x) (some (B.r + B.rf mlt)) (some (90 - |b.blat|)) = some (s * x) := by
    cases hf with
    | evar =>
      refine ⟨evarF, by rw [fnOf, hd.fn], fun x => ?_⟩
      simp only [evarF, normalEvar]
      congr 1
      ring
    | curl =>
      refine ⟨curlF, by rw [fnOf, hd.fn], fun x => ?_⟩
      simp only [curlF, normalCurlEvar]
      congr 1
      ring
  have ha : vectArgs user r i (.fin lat) (.fin mlt) d = .ok
      { datInd := .many [(i : ℤ)], ocbInd := .one r, lat := .many [some lat], lt := .many [some mlt]
        height := .many [entry hv], locCoord := "magnetic", ocbLat := .many [some L], ocbMlt := .many [some M]
        rCorr := .many [some (B.rf mlt)], vectN := .many [some n], vectE := .many [some e], vectZ := .many [some z]
        vectMag := .many [none], vectCoord := "magnetic", scaleFunc := some g } := by
    simp only [vectArgs, numOf, textOf, hd.olat, hd.omlt, hd.rcorr, hd.n, hd.e, hd.z, hd.mag, hd.loc, hd.vec, hd.height, hgf, bind,
      Except.bind, pure, Except.pure, entry, String.ofList_toList]
  obtain ⟨v, hv, c1, c2, c3, c4, c5, c6, c7, c8, c9, c10, c11, c12, c13⟩ : ∃ v, construct lower
      { datInd := .many [(i : ℤ)], ocbInd := .one r, lat := .many [some lat], lt := .many [some mlt]
        height := .many [entry hv], locCoord := "magnetic", ocbLat := .many [some L], ocbMlt := .many [some M]
        rCorr := .many [some (B.rf mlt)], vectN := .many [some n], vectE := .many [some e], vectZ := .many [some z]
        vectMag := .many [none], vectCoord := "magnetic", scaleFunc := some g } = .ok v ∧ v.datInd = .many [(i : ℤ)] ∧ v.ocbInd = .one r ∧
      v.lat = .many [some lat] ∧ v.lt = .many [some mlt] ∧ v.vectN = .many [some n] ∧ v.vectE = .many [some e] ∧ v.vectZ = .many [some z] ∧
      v.locCoord = "magnetic" ∧ v.vectCoord = "magnetic" ∧ v.ocbLat = .many [some L] ∧ v.ocbMlt = .many [some M] ∧
      v.rCorr = .many [some (B.rf mlt)] ∧ v.scaleFunc = some g := by
    rw [construct_eq]
    simp only [hlow, (C50_test "magnetic" "magnetic").1.2 (by simp [Compatible])]
    refine ⟨_, rfl, rfl, rfl, rfl, rfl, rfl, rfl, rfl, rfl, rfl, rfl, rfl, rfl, rfl⟩
  let y : Pt := { da := lat, dl := mlt, n := n, e := e, z := z, rc := B.rf mlt, k := r, j := j, r := B.r, phi := B.phiCent, rho := B.rCent }
  have hone : ∀ {α : Type} (x : α), Reads (.many [x]) 1 fun _ => x := fun x => .inr rfl
  have hH : Holds v 1 fun _ => y := ⟨.inr (by rw [c1]; rfl), by rw [c2]; exact .inl ⟨r, rfl, fun _ _ => rfl⟩, by rw [c3]; exact hone _,
    by rw [c4]; exact hone _, by rw [c5]; exact hone _, by rw [c6]; exact hone _, by rw [c7]; exact hone _, c8, c9⟩
  have hG : ∀ i, i < 1 → y.Good b := fun _ _ =>
    ⟨⟨hB.sel, hB.r, hB.phi, hB.rho, hg.lat, hg.cent.1, hg.cent.2⟩, hg.off, hg.vec⟩
  have hR : InRange b 1 fun _ => y := ⟨by rw [hB.cursor]; exact hB.time, fun _ _ => hB.time⟩
  have hK : Located b v 1 fun _ => y := .known ⟨⟨fun _ => L, by rw [c10]; exact hone _⟩, ⟨fun _ => M, by rw [c11]; exact hone _⟩,
    by rw [c12]; exact hone _⟩
  obtain ⟨w, rec', w1, w2, w3, w4, N, E, Z, m1, m2, m3, m4⟩ := C69_scaled_arrays conv b v 1 (fun _ => y) (by omega) hH hG hR hK
    (.inr (.inr rfl)) g none (.inr c13) (.inl (by rw [c1]; simp [Arr.shape]))
  obtain ⟨⟨u, u1, u2⟩, sc, s1, s2⟩ := setOcb_radii conv b v 1 (fun _ => y) (by omega) hH hG hR hK none w1
  have hN : cellOf w.ocbN = .ok (.fin (s * towards (place lat mlt) (place (90 - B.rCent) (B.phiCent / 15)) (horiz lat mlt n e))) := by
    rw [reads_cell w2]
    exact congrArg (fun q => Except.ok (ofEntry q)) (hgs _)
  have hE : cellOf w.ocbE = .ok (.fin (s * rightOf (place lat mlt) (place (90 - B.rCent) (B.phiCent / 15)) (horiz lat mlt n e))) := by
    rw [reads_cell w3]
    exact congrArg (fun q => Except.ok (ofEntry q)) (hgs _)
  have hZ : cellOf w.ocbZ = .ok (.fin (s * z)) := by
    rw [reads_cell w4]
    exact congrArg (fun q => Except.ok (ofEntry q)) (hgs _)
  have inj : ∀ {a b : F}, (Except.ok (ofEntry a) : Except PyErr V) = .ok (ofEntry b) → a = b := by
    intro a b hab
    cases a <;> cases b <;> simp_all [ofEntry]
  have hNE : N 0 = some (s * towards (place lat mlt) (place (90 - B.rCent) (B.phiCent / 15)) (horiz lat mlt n e)) :=
    inj ((reads_cell m1).symm.trans hN)
  have hEE : E 0 = some (s * rightOf (place lat mlt) (place (90 - B.rCent) (B.phiCent / 15)) (horiz lat mlt n e)) :=
    inj ((reads_cell m2).symm.trans hE)
  have hZE : Z 0 = some (s * z) := inj ((reads_cell m3).symm.trans hZ)
  have hM : cellOf w.ocbMag = .ok (.fin (|s| * √(n ^ 2 + e ^ 2 + z ^ 2))) := by
    rw [reads_cell m4, hNE, hEE, hZE]
    simp only [mag3, ofEntry]
    exact congrArg (fun q => Except.ok (Fl.fin q)) (mag_scaled (hG 0 (by omega)).mag)
  have hU : cellOf u = .ok (.fin (B.r + B.rf mlt)) := reads_cell u2
  have hS : cellOf sc = .ok (.fin (90 - |b.blat|)) := reads_cell s2
  refine ⟨attrOf (.fin (s * towards (place lat mlt) (place (90 - B.rCent) (B.phiCent / 15)) (horiz lat mlt n e)))
      (.fin (s * rightOf (place lat mlt) (place (90 - B.rCent) (B.phiCent / 15)) (horiz lat mlt n e))) (.fin (s * z))
      (.fin (|s| * √(n ^ 2 + e ^ 2 + z ^ 2))) (.fin (B.r + B.rf mlt)) (.fin (90 - |b.blat|)), ?_, rfl, rfl, rfl, rfl, rfl, rfl⟩
  simp only [vectWith, ha, hv, w1, bind, Except.bind, readAttrs, hN, hE, hZ, hM, u1, s1, hU, hS, pure, Except.pure]

theorem ocb_holding {C : Circles} {r : ℤ} {B : Rec} (hB : C.at r = some B) (ht : C.times.length = C.recs.length) :
    Holding (C.bnd r) r r B := by
  refine ⟨rfl, ?_, rfl, idx_at hB Rec.r, idx_at hB Rec.phiCent, idx_at hB Rec.rCent⟩
  have h0 := hB
  unfold Circles.at at h0
  split_ifs at h0 with hr0
  have hlt := (List.getElem?_eq_some_iff.1 h0).1
  rw [← ht] at hlt
  exact ⟨C.times[r.toNat], by
    change pyIdx C.times r = _
    rw [pyIdx, pyGet, if_pos hr0, List.getElem?_eq_getElem hlt]⟩

theorem ocbVect_ok {lower : String → String} (hlow : lower "magnetic" = "magnetic")
    (conv : VD → Arr Tod → ℤ → Except PyErr VD) (user : ℕ → F → F → F → F) {C : Circles} {r : ℤ} {B : Rec} (hB : C.at r = some B)
    (ht : C.times.length = C.recs.length) {lat mlt n e z s : ℝ} (hg : General B lat mlt n e) {f : Fn}
    (hf : Factor f ((B.r + B.rf mlt) / (90 - |C.blat|)) s) {L M : ℝ} {d : Init} {hv : V} (hd : RowDict d hv L M (B.rf mlt) n e z f) (i : ℕ) :
    ∃ res, ocbVect lower conv user C r i (.fin lat) (.fin mlt) d = .ok res ∧ Turned B C.blat lat mlt n e z s fun a v => res a = v :=
  vectWith_ok hlow conv user (ocb_holding hB ht) hg hf hd i

theorem comp_own {t : Table} {i : ℕ} {entries : List (Name × Arg)} (hn : (entries.map Prod.fst).Nodup) {k : Name} {x : ℝ}
    (h : Comp t i entries k x) {d : Init} (hd : d k = some (.num (.fin 0))) : own t i d entries k = some (.num (.fin x)) := by
  rcases h with ⟨col, h1, h2, h3⟩ | ⟨h1, rfl⟩
  · rw [own_value t i d entries k col hn h1, if_pos h2, h3]
  · rw [own_out t i d entries k h1, hd]

theorem own_fn (t : Table) (i : ℕ) (d : Init) (entries : List (Name × Arg)) (k : Name) (f : Fn)
    (hn : (entries.map Prod.fst).Nodup) (h : (k, Arg.fn f) ∈ entries) : own t i d entries k = some (.fn f) := by
  induction entries generalizing d with
  | nil => simp at h
  | cons e es ih =>
    simp only [List.map_cons, List.nodup_cons] at hn
    rw [own, List.foldl_cons]
    rcases List.mem_cons.1 h with rfl | h
    · have := own_out t i (setInit t i d k (.fn f)) es k hn.1
      rw [own] at this
      simp only [this, setInit, if_true]
    · exact ih _ hn.2 h

theorem dict_own {t : Table} {i : ℕ} {entries : List (Name × Arg)} {f : Fn} {n e z : ℝ} (h : Vector t i entries f n e z)
    (L M rc : ℝ) (hv : V) :
    RowDict (own t i (default (.fin L) (.fin M) (.fin rc) hv "magnetic".toList "magnetic".toList) entries) hv L M rc n e z f := by
  have hout : ∀ k, k ∉ plainKeys →
      own t i (default (.fin L) (.fin M) (.fin rc) hv "magnetic".toList "magnetic".toList) entries k =
        default (.fin L) (.fin M) (.fin rc) hv "magnetic".toList "magnetic".toList k :=
    fun k hk => own_out t i _ entries k fun hm => hk (h.plain k hm)
  exact ⟨hout _ (by decide), hout _ (by decide), hout _ (by decide), comp_own h.keys h.north rfl, comp_own h.keys h.east rfl,
    comp_own h.keys h.vert rfl, hout _ (by decide), hout _ (by decide), hout _ (by decide), hout _ (by decide),
    own_fn t i _ entries _ f h.keys h.fn⟩

/-! ## Theorems -/

variable {c : Cycler} {good : ℤ → Prop}

/-- What the columns hold, for either hemisphere: the components are those towards the point at the angular distance of the
circle's centre from the northern pole, also for southern circles. -/
theorem turned_rows (lower : String → String) (hlow : lower "magnetic" = "magnetic")
    (conv : VD → Arr Tod → ℤ → Except PyErr VD) (user : ℕ → F → F → F → F) (C : Circles)
    (ht : C.times.length = C.recs.length) (hb : IsBoundary c good) (rec : ℤ) (h0 : -1 ≤ rec) (tol : ℤ) (htol : 0 ≤ tol) (t : Table)
    (n : Names) (height : Height) (h : ℤ) (hh : h = 1 ∨ h = -1) (hrec : Records c C.at h C.blat) (b : Name) (p : Plan) (o : Out) (hp : plan t.vars n = .ok p)
    (hn : (written n p b).Nodup)
    (ho : addOcb (tableLib lower conv user C) c rec tol t n height "magnetic".toList "magnetic".toList h b = .ok (some o))
    (i : ℕ) (lat mlt : ℝ) (hlat : t.cell n.mlat i = .fin lat) (hmlt : t.cell n.mlt i = .fin mlt) :
    (∃ r B, Cand good rec r ∧ RowClose c t tol i r ∧ C.at r = some B ∧
        (∀ j e entries f x y z s, p.vects[j]? = some (e, entries) →
          (∀ v ∈ p.vects.take j, ∀ k ∈ v.2.map Prod.fst, k ∈ entries.map Prod.fst) → Vector t i entries f x y z →
          General B lat mlt x y → Factor f ((B.r + B.rf mlt) / (90 - |C.blat|)) s →
          Turned B C.blat lat mlt x y z s fun a v => Cell o (keySet b e a) i v) ∧
        ((∀ a b, a ≤ b → b < t.rows → t.time a ≤ t.time b) → StrictOn c.times (Cand good rec) →
          ∀ k, Cand good rec k → RowNearer c t i r k)) ∨
      (Blank o i ∧
        ((∀ a b, a ≤ b → b < t.rows → t.time a ≤ t.time b) → NondecOn c.times (Cand good rec) →
          i ∈ usedRows t n.mlat p.need h → ∀ k, Cand good rec k → ¬ RowClose c t tol i k)) := by
  rcases C94_rows (tableLib lower conv user C) hb rec h0 tol htol t n height _ _ h b p o hp hn ho i with
    ⟨r, hu, hc, hcl, ⟨hgt, v, -, f2, -, -, -, f6, -, -⟩, hne⟩ | hbl
  · left
    obtain ⟨tr, htr, -⟩ := id hcl
    obtain ⟨B, g1, g2, g3, g4, g5⟩ := hrec r tr htr
    have hin : InHem B.hem lat := by
      rw [g3]
      exact sgn_hem hh (used_sign hu hlat)
    obtain ⟨L, M, rc, k1, k2⟩ := ocbNorm_placed g1 g2 hin (g5 mlt) hgt
    have f2 : ocbNorm C.at r (t.cell n.mlat i) (t.cell n.mlt i) hgt = .ok v := f2
    rw [hlat, hmlt, k1, Except.ok.injEq] at f2
    subst f2
    obtain rfl := k2.corr
    refine ⟨r, B, hc, hcl, g1, fun j e entries f x y z s hj hk hv hg hf => ?_, hne⟩
    have hown := C90_own_partial t i (default (.fin L) (.fin M) (.fin (B.rf mlt)) hgt "magnetic".toList "magnetic".toList) p.vects j e
      entries hj hk
    obtain ⟨res, q1, q2⟩ := f6 _ (List.mem_of_getElem? hown)
    obtain ⟨res', q3, q4⟩ := ocbVect_ok hlow conv user g1 ht hg hf (dict_own hv L M (B.rf mlt) hgt) i
    have q1 : ocbVect lower conv user C r i (t.cell n.mlat i) (t.cell n.mlt i) _ = .ok res := q1
    rw [hlat, hmlt, q3, Except.ok.injEq] at q1
    subst q1
    obtain ⟨a1, a2, a3, a4, a5, a6⟩ := q4
    exact ⟨a1 ▸ q2 _ (by decide), a2 ▸ q2 _ (by decide), a3 ▸ q2 _ (by decide), a4 ▸ q2 _ (by decide), a5 ▸ q2 _ (by decide),
      a6 ▸ q2 _ (by decide)⟩
  · exact .inr hbl

/-- C214: when `add_ocb_to_data` adds the columns of a northern `OCBoundary` to a table with magnetic locations and
vectors, a row with a finite location either is blank, or there is a usable record within the tolerance (a nearest one, for
rows and records in order) such that the new columns of each vector hold, for a row in general position, the components
towards the centre of the record's circle and to the right of it and the vertical one, times the ratio of the corrected
radius and the reference radius (squared for curls), their magnitude, and the two radii.  For a vector that names every key
that a vector before it names, see C90. -/
theorem C214_rows (lower : String → String) (hlow : lower "magnetic" = "magnetic")
    (conv : VD → Arr Tod → ℤ → Except PyErr VD) (user : ℕ → F → F → F → F) (C : Circles)
    (ht : C.times.length = C.recs.length) (hb : IsBoundary c good) (rec : ℤ) (h0 : -1 ≤ rec) (tol : ℤ) (htol : 0 ≤ tol) (t : Table)
    (n : Names) (height : Height) (hrec : Records c C.at 1 C.blat) (b : Name) (p : Plan) (o : Out) (hp : plan t.vars n = .ok p)
    (hn : (written n p b).Nodup)
    (ho : addOcb (tableLib lower conv user C) c rec tol t n height "magnetic".toList "magnetic".toList 1 b = .ok (some o))
    (i : ℕ) (lat mlt : ℝ) (hlat : t.cell n.mlat i = .fin lat) (hmlt : t.cell n.mlt i = .fin mlt) :
    (∃ r B, Cand good rec r ∧ RowClose c t tol i r ∧ C.at r = some B ∧
        (∀ j e entries f x y z s, p.vects[j]? = some (e, entries) →
          (∀ v ∈ p.vects.take j, ∀ k ∈ v.2.map Prod.fst, k ∈ entries.map Prod.fst) → Vector t i entries f x y z →
          General B lat mlt x y → Factor f ((B.r + B.rf mlt) / (90 - |C.blat|)) s →
          Turned B C.blat lat mlt x y z s fun a v => Cell o (keySet b e a) i v) ∧
        ((∀ a b, a ≤ b → b < t.rows → t.time a ≤ t.time b) → StrictOn c.times (Cand good rec) →
          ∀ k, Cand good rec k → RowNearer c t i r k)) ∨
      (Blank o i ∧
        ((∀ a b, a ≤ b → b < t.rows → t.time a ≤ t.time b) → NondecOn c.times (Cand good rec) →
          i ∈ usedRows t n.mlat p.need 1 → ∀ k, Cand good rec k → ¬ RowClose c t tol i k)) :=
  turned_rows lower hlow conv user C ht hb rec h0 tol htol t n height 1 (.inl rfl) hrec b p o hp hn ho i lat mlt hlat hmlt

/-! ### Success -/

theorem ocbScale_total (blat : ℝ) (f : Fn) (x y : V) : ∃ v, ocbScale blat f x y = .ok v := by
  unfold ocbScale
  split
  · exact ⟨_, rfl⟩
  · exact ⟨_, rfl⟩

/-- A value in the place of an exception -/
def orElse {α : Type} (d : α) : Except PyErr α → Except PyErr α
  | .ok v => .ok v
  | .error _ => .ok d

theorem orElse_ok {α : Type} {d v : α} {x : Except PyErr α} (h : x = .ok v) : orElse d x = x := by rw [h]; rfl

theorem orElse_total {α : Type} (d : α) (x : Except PyErr α) : ∃ v, orElse d x = .ok v := by
  cases x <;> exact ⟨_, rfl⟩

/-- The library with values in the place of exceptions -/
def patch (L : Lib) : Lib :=
  { L with norm := fun r x y z => orElse (.nan, .nan, .nan) (L.norm r x y z)
           vect := fun r i x y d => orElse (fun _ => .nan) (L.vect r i x y d) }

/-- The functions return values in the row `i` with the record `r`. -/
def RowOk (L : Lib) (t : Table) (E : Env) (i : ℕ) (r : ℤ) : Prop :=
  ∀ hgt, E.height.get i = .ok hgt → ∃ n, L.norm r (t.cell E.names.mlat i) (t.cell E.names.mlt i) hgt = .ok n ∧
    ∀ v ∈ inits t i (default n.1 n.2.1 n.2.2 hgt E.loc E.vec) E.p.vects, ∃ res,
      L.vect r i (t.cell E.names.mlat i) (t.cell E.names.mlt i) v.2 = .ok res

theorem putVects_patch {L : Lib} {b : Name} {r : ℤ} {i : ℕ} {lat lt : V}
    {vs : List (Name × Init)} (h : ∀ v ∈ vs, ∃ res, L.vect r i lat lt v.2 = .ok res) (o : Out) :
    putVects (patch L) b r i lat lt vs o = putVects L b r i lat lt vs o := by
  induction vs generalizing o with
  | nil => rfl
  | cons v vs ih =>
    obtain ⟨res, hres⟩ := h v List.mem_cons_self
    have h1 : (patch L).vect r i lat lt v.2 = .ok res := (orElse_ok hres).trans hres
    simp only [putVects, h1, hres, bind, Except.bind]
    cases putAll i (attrs.map fun a => (keySet b v.1 a, res a)) o with
    | error e => rfl
    | ok o1 => exact ih (fun w hw => h w (List.mem_cons_of_mem _ hw)) o1

theorem putScaled_patch (L : Lib) (t : Table) (b : Name) (f : Fn) (i : ℕ) (rad : V) (es : List Name) (o : Out) :
    putScaled (patch L) t b f i rad es o = putScaled L t b f i rad es o := by
  induction es generalizing o with
  | nil => rfl
  | cons e es ih =>
    have h1 : (patch L).scale = L.scale := rfl
    simp only [putScaled, ih, h1]

theorem doRow_patch {L : Lib} {t : Table} {E : Env} {i : ℕ} {r : ℤ} (o : Out)
    (hn : (written E.names E.p E.b).Nodup) (hv : RowOk L t E i r) : doRow (patch L) t E o i r = doRow L t E o i r := by
  have hrad : (patch L).radius = L.radius := rfl
  simp only [doRow, bind, Except.bind, putScaled_patch, hrad]
  cases hh : E.height.get i with
  | error e => rfl
  | ok hgt =>
    obtain ⟨n, hnrm, hvec⟩ := hv hgt hh
    have h1 : (patch L).norm r (t.cell E.names.mlat i) (t.cell E.names.mlt i) hgt = .ok n := (orElse_ok hnrm).trans hnrm
    simp only [h1, hnrm]
    cases h1 : putAll i [(under E.names.mlat E.b, n.1), (under E.names.mlt E.b, n.2.1), (under "r_corr".toList E.b, n.2.2)] o with
    | error e => rfl
    | ok o1 =>
      simp only []
      have hn0 : ([under E.names.mlat E.b, under E.names.mlt E.b, under "r_corr".toList E.b] : List Name).Nodup := by
        rw [written, List.append_assoc, List.append_assoc] at hn
        exact (List.nodup_append.1 hn).1
      have s1 := (putAll_spec h1).1 hn0
      cases g1 : get o1 (under E.names.mlat E.b) i with
      | error e => rfl
      | ok x1 =>
        simp only []
        cases g2 : get o1 (under E.names.mlt E.b) i with
        | error e => rfl
        | ok x2 =>
          simp only []
          cases g3 : get o1 (under "r_corr".toList E.b) i with
          | error e => rfl
          | ok x3 =>
            obtain rfl : x1 = n.1 := get_cell (s1 _ _ (by simp)) g1
            obtain rfl : x2 = n.2.1 := get_cell (s1 _ _ (by simp)) g2
            obtain rfl : x3 = n.2.2 := get_cell (s1 _ _ (by simp)) g3
            simp only [putVects_patch hvec o1]

theorem doRows_patch {L : Lib} {t : Table} {E : Env} {l : List (ℕ × ℤ)} (hn : (written E.names E.p E.b).Nodup)
    (hv : ∀ q ∈ l, RowOk L t E q.1 q.2) (o : Out) : doRows (patch L) t E l o = doRows L t E l o := by
  induction l generalizing o with
  | nil => rfl
  | cons q l ih =>
    obtain ⟨i, r⟩ := q
    simp only [doRows, bind, Except.bind, doRow_patch o hn (hv (i, r) List.mem_cons_self)]
    cases doRow L t E o i r with
    | error e => rfl
    | ok o1 => exact ih (fun q' hq' => hv q' (List.mem_cons_of_mem _ hq')) o1

theorem inits_at {t : Table} {i : ℕ} {d : Init} {vects : List (Name × List (Name × Arg))} {v : Name × Init} (h : v ∈ inits t i d vects) :
    ∃ j : ℕ, (inits t i d vects)[j]? = some v ∧ ∃ e entries, vects[j]? = some (e, entries) := by
  obtain ⟨j, hj⟩ := List.mem_iff_getElem?.1 h
  refine ⟨j, hj, ?_⟩
  have h1 := (List.getElem?_eq_some_iff.1 hj).1
  have h2 : (inits t i d vects).length = vects.length := by
    have := congrArg List.length (inits_names t i d vects)
    simpa using this
  rw [h2] at h1
  exact ⟨_, _, List.getElem?_eq_getElem h1⟩

/-- The call succeeds when the functions return values in each selected row with every record. -/
theorem rows_succeed (L : Lib) (hL : ∀ f x y, ∃ v, L.scale f x y = .ok v) (hb : IsBoundary c good) (rec : ℤ) (h0 : -1 ≤ rec) (tol : ℤ)
    (htol : 0 ≤ tol) (t : Table) (n : Names) (hgt : ℕ → V) (loc vec : Name) (h : ℤ) (k : Kind) (p : Plan) (hp : plan t.vars n = .ok p)
    (hn : (written n p (bname k)).Nodup) (hv : ∀ e ∈ p.evars ++ p.curls, e ∈ t.vars)
    (hc : ∀ v ∈ p.vects, Clean v.1)
    (hs : ∀ e ∈ [n.mlat, n.mlt, "r_corr".toList] ++ p.evars ++ p.curls, e ∉ p.vects.map Prod.fst)
    (hT : ∀ a b, a ≤ b → b < t.rows → t.time a ≤ t.time b) (hN : NondecOn c.times (Cand good rec))
    (hr : c.times ≠ []) (hno : ¬ NoOverlap c good rec ((usedRows t n.mlat p.need h).map t.time) tol)
    (hg : ∀ i ∈ usedRows t n.mlat p.need h, ∀ r tr, At c.times r tr → RowOk L t ⟨n, p, bname k, .column hgt, loc, vec⟩ i r) :
    ∃ o, addOcb L c rec tol t n (.column hgt) loc vec h (bname k) = .ok (some o) := by
  cases hd : drive c ((usedRows t n.mlat p.need h).map t.time) tol 0 rec with
  | error e =>
    exact absurd ((C60_drive_error_iff_partial hb _ tol htol rec h0 (used_times hT _ _ _) hN e).1 hd).2 hno
  | ok l =>
    have hrec0 : ¬ c.records = 0 := by
      rw [Cycler.records]
      have := List.length_pos_iff.2 hr
      omega
    obtain ⟨q1, q2⟩ := C18_drive_pairs hb _ tol htol rec h0 l hd
    set used := usedRows t n.mlat p.need h with hused
    obtain ⟨o, ho⟩ := doRows_ok (L := patch L)
      ⟨fun _ _ _ _ => orElse_total _ _, fun _ _ _ _ _ => orElse_total _ _, hL⟩
      (E := ⟨n, p, bname k, .column hgt, loc, vec⟩) ⟨hgt, rfl⟩ hv hn
      (l.map fun q => (used.getD q.1 0, q.2)) (o := blank (outKeys (bname k) n p)) (by
        intro x hx
        rw [blank, if_pos (written_made k n p hc hs x hx)]
        rfl)
    rw [doRows_patch hn] at ho
    · exact ⟨o, by simp only [addOcb, hp, bind, Except.bind, pure, Except.pure, if_neg hrec0, ← hused, hd, ho]⟩
    intro q' hq'
    obtain ⟨q, hq, rfl⟩ := List.mem_map.1 hq'
    obtain ⟨⟨d, tr, hdq, htr, -⟩, -⟩ := q2 q hq
    have hlt : q.1 < used.length := by
      have := (List.getElem?_eq_some_iff.1 hdq).1
      simpa using this
    have hmem : used.getD q.1 0 ∈ used := by
      rw [List.getD_eq_getElem?_getD, List.getElem?_eq_getElem hlt, Option.getD_some]
      exact List.getElem_mem _
    exact hg _ hmem q.2 tr htr

theorem turned_succeed (lower : String → String) (hlow : lower "magnetic" = "magnetic")
    (conv : VD → Arr Tod → ℤ → Except PyErr VD) (user : ℕ → F → F → F → F) (C : Circles)
    (ht : C.times.length = C.recs.length) (hb : IsBoundary c good) (rec : ℤ) (h0 : -1 ≤ rec) (tol : ℤ) (htol : 0 ≤ tol) (t : Table)
    (n : Names) (hgt : ℕ → V) (h : ℤ) (hh : h = 1 ∨ h = -1) (hrec : Records c C.at h C.blat) (k : Kind) (p : Plan) (hp : plan t.vars n = .ok p)
    (hn : (written n p (bname k)).Nodup) (hv : ∀ e ∈ p.evars ++ p.curls, e ∈ t.vars)
    (hc : ∀ v ∈ p.vects, Clean v.1)
    (hs : ∀ e ∈ [n.mlat, n.mlt, "r_corr".toList] ++ p.evars ++ p.curls, e ∉ p.vects.map Prod.fst)
    (hT : ∀ a b, a ≤ b → b < t.rows → t.time a ≤ t.time b) (hN : NondecOn c.times (Cand good rec))
    (hr : c.times ≠ []) (hno : ¬ NoOverlap c good rec ((usedRows t n.mlat p.need h).map t.time) tol)
    (hg : ∀ i ∈ usedRows t n.mlat p.need h, ∃ lat mlt, t.cell n.mlat i = .fin lat ∧ t.cell n.mlt i = .fin mlt ∧
      ∀ j e entries, p.vects[j]? = some (e, entries) →
        (∀ v ∈ p.vects.take j, ∀ k ∈ v.2.map Prod.fst, k ∈ entries.map Prod.fst) ∧
        ∃ f x y z, (f = .evar ∨ f = .curl) ∧ Vector t i entries f x y z ∧
          ∀ r tr B, At c.times r tr → C.at r = some B → General B lat mlt x y) :
    ∃ o, addOcb (tableLib lower conv user C) c rec tol t n (.column hgt) "magnetic".toList "magnetic".toList h (bname k) =
      .ok (some o) := by
  refine rows_succeed _ (fun f x y => ocbScale_total C.blat f x y) hb rec h0 tol htol t n hgt _ _ h k p hp hn hv hc hs hT hN hr hno ?_
  intro i hmem r tr htr hgt0 _
  obtain ⟨lat, mlt, hlat, hmlt, hvec⟩ := hg i hmem
  obtain ⟨B, g1, g2, g3, g4, g5⟩ := hrec r tr htr
  have hin : InHem B.hem lat := by
    rw [g3]
    exact sgn_hem hh (used_sign hmem hlat)
  obtain ⟨L, M, rc, k1, k2⟩ := ocbNorm_placed g1 g2 hin (g5 mlt) hgt0
  obtain rfl := k2.corr
  refine ⟨(.fin L, .fin M, .fin (B.rf mlt)), ?_, fun v hv => ?_⟩
  · simp only [hlat, hmlt]
    exact k1
  · obtain ⟨j, hj, e, entries, hje⟩ := inits_at hv
    obtain ⟨hk, f, x, y, z, hf, hV, hG⟩ := hvec j e entries hje
    have hown := C90_own_partial t i
      (default (.fin L) (.fin M) (.fin (B.rf mlt)) hgt0 "magnetic".toList "magnetic".toList) p.vects j e entries hje hk
    have hve := hj.symm.trans hown
    simp only [Option.some.injEq] at hve
    subst hve
    obtain ⟨s, hs⟩ : ∃ s, Factor f ((B.r + B.rf mlt) / (90 - |C.blat|)) s := by
      rcases hf with rfl | rfl
      · exact ⟨_, .evar _⟩
      · exact ⟨_, .curl _⟩
    obtain ⟨res, q3, -⟩ := ocbVect_ok hlow conv user g1 ht (hG r tr B htr g1) hs (dict_own hV L M (B.rf mlt) hgt0) i
    simp only [hlat, hmlt]
    exact ⟨res, q3⟩

/-- C214: the call succeeds, so that C214_rows says what the columns hold, when: there is a column of heights; the remaining
names are variables; no vector has `ocb` in its name or is named like another quantity; the columns have different names; the
rows and records are in time order and not entirely apart; every record is a northern circle; and in each selected row the
location and the vectors are finite and in general position for every record. -/
theorem C214_succeeds (lower : String → String) (hlow : lower "magnetic" = "magnetic")
    (conv : VD → Arr Tod → ℤ → Except PyErr VD) (user : ℕ → F → F → F → F) (C : Circles)
    (ht : C.times.length = C.recs.length) (hb : IsBoundary c good) (rec : ℤ) (h0 : -1 ≤ rec) (tol : ℤ) (htol : 0 ≤ tol) (t : Table)
    (n : Names) (hgt : ℕ → V) (hrec : Records c C.at 1 C.blat) (k : Kind) (p : Plan) (hp : plan t.vars n = .ok p)
    (hn : (written n p (bname k)).Nodup) (hv : ∀ e ∈ p.evars ++ p.curls, e ∈ t.vars)
    (hc : ∀ v ∈ p.vects, Clean v.1)
    (hs : ∀ e ∈ [n.mlat, n.mlt, "r_corr".toList] ++ p.evars ++ p.curls, e ∉ p.vects.map Prod.fst)
    (hT : ∀ a b, a ≤ b → b < t.rows → t.time a ≤ t.time b) (hN : NondecOn c.times (Cand good rec))
    (hr : c.times ≠ []) (hno : ¬ NoOverlap c good rec ((usedRows t n.mlat p.need 1).map t.time) tol)
    (hg : ∀ i ∈ usedRows t n.mlat p.need 1, ∃ lat mlt, t.cell n.mlat i = .fin lat ∧ t.cell n.mlt i = .fin mlt ∧
      ∀ j e entries, p.vects[j]? = some (e, entries) →
        (∀ v ∈ p.vects.take j, ∀ k ∈ v.2.map Prod.fst, k ∈ entries.map Prod.fst) ∧
        ∃ f x y z, (f = .evar ∨ f = .curl) ∧ Vector t i entries f x y z ∧
          ∀ r tr B, At c.times r tr → C.at r = some B → General B lat mlt x y) :
    ∃ o, addOcb (tableLib lower conv user C) c rec tol t n (.column hgt) "magnetic".toList "magnetic".toList 1 (bname k) =
      .ok (some o) :=
  turned_succeed lower hlow conv user C ht hb rec h0 tol htol t n hgt 1 (.inl rfl) hrec k p hp hn hv hc hs hT hN hr hno hg

/-! ## An instance -/

/-- One circle of 16 degrees, 5 degrees from the pole -/
noncomputable def exCircles : Circles := ⟨[exRec], [⟨0, 0, 0, 0⟩], 74, 1, fun _ _ _ _ _ => .error .valueError⟩

theorem exCircles_at : exCircles.at 0 = some exRec := rfl

theorem exVector (i : ℕ) : Vector exTable i [("vect_n".toList, .text "vn".toList), ("scale_func".toList, .fn .evar)] .evar 1 0 0 :=
  ⟨by decide, by decide, by simp, .inl ⟨"vn".toList, by simp, by decide, rfl⟩, .inr ⟨by decide, rfl⟩, .inr ⟨by decide, rfl⟩⟩

theorem exGeneral : General exRec 1 1 1 0 := by
  refine ⟨by norm_num, fun k hk => ?_, by norm_num, by norm_num [exRec]⟩
  have : (5 : ℝ) = 12 * k := by
    simp only [exRec] at hk
    linarith
  have : (5 : ℤ) = 12 * k := by exact_mod_cast this
  omega

/-- The hypotheses of `C214_rows` and `C214_succeeds` hold for the table of C94 and one record at time 0: the first row has
the vector 1 towards the magnetic pole, which is turned towards the centre of the circle and scaled by 16 / 16. -/
example : ∃ o, addOcb (tableLib id (fun _ _ _ => .error .valueError) (fun _ x _ _ => x) exCircles) (dualCycler [0]) 0 60 exTable exNames
    (.column fun _ => .fin 0) "magnetic".toList "magnetic".toList 1 (bname .ocb) = .ok (some o) ∧
    Turned exRec 74 1 1 1 0 0 1 fun a v => Cell o (keySet (bname .ocb) "vel".toList a) 0 v := by
  have hb : IsBoundary (dualCycler [0]) (fun _ => True) := .dual [0] (by simp)
  have hp : plan exTable.vars exNames = .ok exPlan := by decide
  have hn : (written exNames exPlan (bname .ocb)).Nodup := by decide
  have hT : ∀ a b, a ≤ b → b < exTable.rows → exTable.time a ≤ exTable.time b := by
    intro a b hab _
    simp only [exTable]
    omega
  have h1 : ∀ k t, At [0] k t → k = 0 ∧ t = 0 := by
    intro k t ⟨hk, ht⟩
    match hk' : k.toNat, ht with
    | 0, ht => simp at ht; omega
    | m + 1, ht => simp at ht
  have hN : NondecOn (dualCycler [0]).times (Cand (fun _ => True) 0) := by
    intro a b s t _ _ _ hs ht
    have := h1 a s hs
    have := h1 b t ht
    omega
  have hrec : Records (dualCycler [0]) exCircles.at 1 exCircles.blat := by
    intro r tr hr
    obtain ⟨rfl, -⟩ := h1 r tr hr
    exact ⟨exRec, rfl, exRec_valid, by simp [exRec], rfl, fun m => by norm_num [exRec]⟩
  have hj : ∀ j e entries, exPlan.vects[j]? = some (e, entries) → j = 0 ∧
      entries = [("vect_n".toList, .text "vn".toList), ("scale_func".toList, .fn .evar)] := by
    intro j e entries h
    match j, h with
    | 0, h =>
      simp only [exPlan, List.getElem?_cons_zero, Option.some.injEq, Prod.mk.injEq] at h
      exact ⟨rfl, h.2.symm⟩
    | j + 1, h => simp [exPlan] at h
  obtain ⟨o, ho⟩ := C214_succeeds id rfl (fun _ _ _ => .error .valueError) (fun _ x _ _ => x) exCircles rfl hb 0
    (by decide) 60 (by decide) exTable exNames (fun _ => .fin 0) hrec .ocb exPlan hp hn (by decide)
    (by unfold Clean; decide) (by decide) hT hN (by simp [dualCycler]) (by
      rw [exUsed]
      rintro ⟨-, ⟨h, -⟩ | ⟨-, h⟩⟩
      · simp at h
      · have := h 0 0 0 ⟨le_rfl, rfl⟩ ⟨le_rfl, .inl rfl⟩ (by simp [exTable])
        omega) (fun i _ => ⟨1, 1, rfl, rfl, fun j e entries h => by
          obtain ⟨rfl, rfl⟩ := hj j e entries h
          refine ⟨by simp, .evar, 1, 0, 0, .inl rfl, exVector i, fun r tr B hr hB => ?_⟩
          obtain ⟨rfl, -⟩ := h1 r tr hr
          rw [exCircles_at, Option.some.injEq] at hB
          subst hB
          exact exGeneral⟩)
  refine ⟨o, ho, ?_⟩
  rcases C214_rows id rfl (fun _ _ _ => .error .valueError) (fun _ x _ _ => x) exCircles rfl hb 0 (by decide) 60 (by decide) exTable
    exNames (.column fun _ => .fin 0) hrec (bname .ocb) exPlan o hp hn ho 0 1 1 rfl rfl with
    ⟨r, B, -, ⟨tr, hr, -⟩, hB, hv, -⟩ | ⟨-, hc⟩
  · obtain ⟨rfl, -⟩ := h1 r tr hr
    rw [exCircles_at, Option.some.injEq] at hB
    subst hB
    refine hv 0 "vel".toList _ .evar 1 0 0 1 rfl (by simp) (exVector 0) exGeneral ?_
    have e : (exRec.r + exRec.rf 1) / (90 - |exCircles.blat|) = 1 := by
      simp only [exCircles]
      rw [abs_of_pos (by norm_num)]
      norm_num [exRec]
    rw [e]
    exact .evar 1
  · exact absurd ⟨0, ⟨le_rfl, rfl⟩, by simp [exTable]⟩
      (hc hT hN (by rw [exUsed]; simp) 0 ⟨le_rfl, .inl rfl⟩)

end Ocb.Pysat

namespace Ocb.XData

open Ocb.Files (Name)
open Ocb.Grid
open Ocb.Cycle
open Ocb.Coord
open Ocb.Time (Tod)
open Ocb.Pysat (V Lib Names Plan Arg plan under keySet attrs Placed Records Circles tableLib Vector General Factor Turned ocbNorm ocbVect
  ocbNorm_placed ocbVect_ok dict_own patch)

/-- `L` returns the values that `T` returns; it may return some where `T` raises an exception. -/
structure Agrees (L T : Lib) : Prop where
  norm : ∀ r x y z v, T.norm r x y z = .ok v → L.norm r x y z = .ok v
  vect : ∀ r i x y d f, T.vect r i x y d = .ok f → L.vect r i x y d = .ok f

theorem agrees_self (T : Lib) : Agrees T T := ⟨fun _ _ _ _ _ h => h, fun _ _ _ _ _ _ h => h⟩

theorem agrees_patch (T : Lib) : Agrees (patch T) T :=
  ⟨fun _ _ _ _ _ h => (Ocb.Pysat.orElse_ok h).trans h, fun _ _ _ _ _ _ h => (Ocb.Pysat.orElse_ok h).trans h⟩

variable {c : Cycler} {good : ℤ → Prop}

/-- C214: the vector attributes of a set with named dimensions hold the same for each cell in the northern hemisphere, in the
layouts of C212, with the location and the components that have the labels of the cell.  The library is that of an
`OCBoundary` (`agrees_self`) or returns what this one returns. -/
theorem C214_cells (lower : String → String) (hlow : lower "magnetic" = "magnetic")
    (conv : Ocb.Scale.VD → Ocb.Scale.Arr Tod → ℤ → Except PyErr Ocb.Scale.VD)
    (user : ℕ → Ocb.Scale.F → Ocb.Scale.F → Ocb.Scale.F → Ocb.Scale.F) (C : Circles)
    (ht : C.times.length = C.recs.length) (L : Lib) (hL : Agrees L (tableLib lower conv user C)) (hb : IsBoundary c good) (rec : ℤ)
    (h0 : -1 ≤ rec) (tol : ℤ) (htol : 0 ≤ tol) (S : XSet)
    (n : Names) (hgt : Height) (hrec : Records c C.at 1 C.blat) (b : Name) (p : Plan) (base extra : List Name)
    (hp : plan (S.vars ++ S.coords) n = .ok p) (hs : Sound S p.need)
    (hl : Layout S n.mlat n.mlt p.need hgt base extra) (hord : InOrder S n.mlt p.need (base ++ extra))
    (hk : (Ocb.Pysat.written n p b).Nodup)
    (hx : ∀ v ∈ p.vects, ∀ k ∈ v.2, ∀ x, k.2 = .text x → x ∈ S.vars ++ S.coords → FitIn S (base ++ extra) x)
    (out : Name → Arr V)
    (ho : addX L c rec tol S n hgt "magnetic".toList "magnetic".toList 1 b = .ok (some out)) (σ : Name → ℕ)
    (hσ : ∀ d ∈ base ++ extra, σ d < S.len d) (lat mlt : ℝ) (hlat : cell S n.mlat σ = .fin lat) (hmlt : cell S n.mlt σ = .fin mlt)
    (hin : 0 < lat) :
    (∃ r B, Chosen S n.mlat p.need 1 σ ∧ Cand good rec r ∧ TimeClose c S tol (σ S.index) r ∧ C.at r = some B ∧
      ∀ (j : ℕ) (e : Name) (entries : List (Name × Arg)) f x y z s, p.vects[j]? = some (e, entries) →
        (∀ v ∈ p.vects.take j, ∀ k ∈ v.2.map Prod.fst, k ∈ entries.map Prod.fst) → Vector (rowAt S σ) 0 entries f x y z →
        General B lat mlt x y → Factor f ((B.r + B.rf mlt) / (90 - |C.blat|)) s →
        Turned B C.blat lat mlt x y z s fun a v => (out (keySet b e a)).val ((base ++ extra).map σ) = v) ∨
    ∀ k, (out k).val ((base ++ extra).map σ) = .nan := by
  rcases C212_vectors_partial L hb rec h0 tol htol S n hgt _ _ 1 (.inl rfl) b p base extra hp hs hl hord hk hx out ho σ hσ with
    ⟨r, v, hch, hc, hcl, f2, -, f6⟩ | hbl
  · left
    obtain ⟨ti, tr, -, htr, -⟩ := id hcl
    obtain ⟨B, g1, g2, g3, g4, g5⟩ := hrec r tr htr
    have hinB : InHem B.hem lat := by
      rw [g3]
      simp [InHem, hin]
    obtain ⟨L', M, rc, k1, k2⟩ := ocbNorm_placed g1 g2 hinB (g5 mlt) (heightAt S hgt σ)
    have k1' := hL.norm r (.fin lat) (.fin mlt) (heightAt S hgt σ) _ k1
    rw [hlat, hmlt, k1', Except.ok.injEq] at f2
    subst f2
    obtain rfl := k2.corr
    refine ⟨r, B, hch, hc, hcl, g1, fun j e entries f x y z s hj hk hv hg hf => ?_⟩
    have hown := Ocb.Pysat.C90_own_partial (rowAt S σ) 0
      (Ocb.Pysat.default (.fin L') (.fin M) (.fin (B.rf mlt)) (heightAt S hgt σ) "magnetic".toList "magnetic".toList) p.vects j e entries hj hk
    obtain ⟨res, q1, q2⟩ := f6 _ (List.mem_of_getElem? hown)
    obtain ⟨res', q3, q4⟩ := ocbVect_ok hlow conv user g1 ht hg hf (dict_own hv L' M (B.rf mlt) (heightAt S hgt σ)) (σ S.index)
    have q3' := hL.vect r (σ S.index) (.fin lat) (.fin mlt) _ _ q3
    rw [hlat, hmlt, q3', Except.ok.injEq] at q1
    subst q1
    obtain ⟨a1, a2, a3, a4, a5, a6⟩ := q4
    exact ⟨a1 ▸ q2 _ (by decide), a2 ▸ q2 _ (by decide), a3 ▸ q2 _ (by decide), a4 ▸ q2 _ (by decide), a5 ▸ q2 _ (by decide),
      a6 ▸ q2 _ (by decide)⟩
  · exact .inr hbl

/-- One circle of 16 degrees, centred 5 degrees from the pole towards midnight -/
noncomputable def exMidnight : Rec := ⟨0, 5, 16, fun _ => 0, 1, 74⟩

noncomputable def exMidCircles : Circles := ⟨[exMidnight], [⟨0, 0, 0, 0⟩], 74, 1, fun _ _ _ _ _ => .error .valueError⟩

/-- The hypotheses of `C214_cells` hold for the set of C212 and one record at time 0: the vector of length 10 at the second
latitude and the first altitude is turned towards the centre of the circle. -/
example : ∃ out, addX (patch (tableLib id (fun _ _ _ => .error .valueError) (fun _ x _ _ => x) exMidCircles)) (dualCycler [0]) 0 60
    (exSet ["t".toList, "lat".toList, "z".toList]) exVNames (.scalar (.fin 0)) "magnetic".toList "magnetic".toList 1
    (Ocb.Pysat.bname .ocb) = .ok (some out) ∧
    Turned exMidnight 74 71 6 10 0 0 1 fun a v => (out (keySet (Ocb.Pysat.bname .ocb) "v".toList a)).val [0, 1, 0] = v := by
  set ds := ["t".toList, "lat".toList, "z".toList] with hds
  have hds' : ds = ["t".toList, "z".toList, "lat".toList] ∨ ds = ["t".toList, "lat".toList, "z".toList] := .inr hds
  have hb : IsBoundary (dualCycler [0]) (fun _ => True) := .dual [0] (by simp)
  obtain ⟨hN, hord, hch, hin, hus0, fe1, fe2⟩ := exFacts ds hds
  obtain ⟨a1, a2, a3, a4, a5⟩ := exArr ds
  have hp := exVPlan_eq ds
  have hs : Sound (exSet ds) exVPlan.need := exSound ds hds'
  have hl : Layout (exSet ds) exVNames.mlat exVNames.mlt exVPlan.need (.scalar (.fin 0)) ["t".toList, "lat".toList] ["z".toList] :=
    exLayout ds hds' _
  have hne : exVNames.mlat ≠ exVNames.mlt := by decide +kernel
  obtain ⟨l', hr, -⟩ := ready hp hs hl hne
  have hem : "e".toList ∈ (exSet ds).vars := by
    change "e".toList ∈ ["lt".toList, "e".toList]
    decide +kernel
  have hneed : "e".toList ∈ exVPlan.need := by
    change "e".toList ∈ ["lat".toList, "lt".toList, "e".toList]
    decide +kernel
  have hfit : FitIn (exSet ds) (["t".toList, "lat".toList] ++ ["z".toList]) "e".toList := by
    obtain ⟨u1, -, u3⟩ := hs.arr _ hneed
    exact ⟨u1, hr.sub _ hneed, u3, fe1, fe2⟩
  have hx : ∀ v ∈ exVPlan.vects, ∀ k ∈ v.2, ∀ x, k.2 = .text x → x ∈ (exSet ds).vars ++ (exSet ds).coords →
      FitIn (exSet ds) (["t".toList, "lat".toList] ++ ["z".toList]) x := by
    intro v hv k hk x hkx _
    rw [exVPlan, List.mem_singleton] at hv
    subst hv
    simp only [List.mem_cons, List.not_mem_nil, or_false] at hk
    rcases hk with rfl | rfl
    · simp only [Arg.text.injEq] at hkx
      rw [← hkx]
      exact hfit
    · simp at hkx
  have hclean : ∀ v ∈ exVPlan.vects, Ocb.Pysat.Clean v.1 := by
    intro v hv
    rw [exVPlan, List.mem_singleton] at hv
    subst hv
    change ¬ ['o', 'c', 'b'] <:+: "v".toList
    decide +kernel
  have hrec : Records (dualCycler [0]) exMidCircles.at 1 exMidCircles.blat := by
    intro r tr hr
    obtain ⟨rfl, -⟩ := exOne r tr hr
    refine ⟨exMidnight, rfl, ⟨.inl rfl, by norm_num [exMidnight], ?_⟩, by simp [exMidnight], rfl, fun m => by norm_num [exMidnight]⟩
    rw [abs_lt]
    constructor <;> norm_num [exMidnight]
  obtain ⟨out, ho⟩ := C212_succeeds (patch (tableLib id (fun _ _ _ => .error .valueError) (fun _ x _ _ => x) exMidCircles))
    ⟨fun _ _ _ _ => Ocb.Pysat.orElse_total _ _, fun _ _ _ _ _ => Ocb.Pysat.orElse_total _ _,
      fun f x y => Ocb.Pysat.ocbScale_total _ f x y⟩ hb 0
    (by decide) 60 (by decide) (exSet ds) exVNames (.scalar (.fin 0)) "magnetic".toList "magnetic".toList 1 (.inl rfl) .ocb exVPlan _ _
    hp hs hl hord hne hclean
    (by decide +kernel) (by simp [exVPlan]) hx ⟨"e".toList, hneed, hem, by decide +kernel⟩ (by simp [exSet])
    (fun _ τ _ _ _ _ => hch τ) hN (by simp [dualCycler]) (by
      rintro ⟨-, ⟨hx, -⟩ | ⟨-, hx⟩⟩
      · omega
      · have := hx 0 0 0 ⟨le_rfl, rfl⟩ ⟨le_rfl, .inl rfl⟩ hus0
        omega)
  refine ⟨out, ho, ?_⟩
  have n1 : ¬ "t".toList = "lat".toList := by decide +kernel
  have n2 : ¬ "z".toList = "lat".toList := by decide +kernel
  obtain ⟨σ, s1, s2, s3⟩ : ∃ σ : Name → ℕ, σ "t".toList = 0 ∧ σ "lat".toList = 1 ∧ σ "z".toList = 0 :=
    ⟨fun d => if d = "lat".toList then 1 else 0, by simp only [if_neg n1], by simp only [if_true], by simp only [if_neg n2]⟩
  have hσ := hin σ s1 (by omega) (by omega)
  have hlat : cell (exSet ds) exVNames.mlat σ = .fin 71 := by
    change cell (exSet ds) "lat".toList σ = .fin 71
    rw [cell, a2]
    simp only [List.map_cons, List.map_nil, s2]
    norm_num
  have hmlt : cell (exSet ds) exVNames.mlt σ = .fin 6 := by
    change cell (exSet ds) "lt".toList σ = .fin 6
    rw [cell, a4]
  have he : cell (exSet ds) "e".toList σ = .fin 10 := by
    rw [cell, a5, hds]
    simp only [List.map_cons, List.map_nil, s1, s2, s3]
    norm_num
  have hix : (["t".toList, "lat".toList] ++ ["z".toList]).map σ = [0, 1, 0] := by
    change [σ "t".toList, σ "lat".toList, σ "z".toList] = [0, 1, 0]
    rw [s1, s2, s3]
  have hval := C214_cells id rfl (fun _ _ _ => .error .valueError) (fun _ x _ _ => x) exMidCircles rfl _ (agrees_patch _) hb 0 (by decide) 60
    (by decide) (exSet ds) exVNames (.scalar (.fin 0)) hrec (Ocb.Pysat.bname .ocb) exVPlan _ _ hp hs hl hord (by decide +kernel) hx out ho
    σ hσ 71 6 hlat hmlt (by norm_num)
  rw [hix] at hval
  rcases hval with ⟨r, B, -, -, ⟨ti, tr, -, htr, -⟩, hB, hv⟩ | hnan
  · obtain ⟨rfl, -⟩ := exOne r tr htr
    obtain rfl : exMidnight = B := by
      have : exMidCircles.at 0 = some exMidnight := rfl
      rw [this, Option.some.injEq] at hB
      exact hB
    refine hv 0 "v".toList _ .evar 10 0 0 1 rfl (by simp) ?_ ?_ ?_
    · refine ⟨by decide +kernel, by decide +kernel, by simp, .inl ⟨"e".toList, by simp, List.mem_append_left _ hem, he⟩,
        .inr ⟨by decide +kernel, rfl⟩, .inr ⟨by decide +kernel, rfl⟩⟩
    · refine ⟨by norm_num, fun k hk => ?_, by norm_num, by norm_num [exMidnight]⟩
      have : (-6 : ℝ) = 12 * k := by
        simp only [exMidnight] at hk
        linarith
      have : (-6 : ℤ) = 12 * k := by exact_mod_cast this
      omega
    · have e : (exMidnight.r + exMidnight.rf 6) / (90 - |exMidCircles.blat|) = 1 := by
        simp only [exMidCircles]
        rw [abs_of_pos (by norm_num)]
        norm_num [exMidnight]
      rw [e]
      exact .evar 1
  · exfalso
    have hrec0 := C210_cells_partial (patch (tableLib id (fun _ _ _ => .error .valueError) (fun _ x _ _ => x) exMidCircles)) hb 0 (by decide) 60
      (by decide) (exSet ds) exVNames (.scalar (.fin 0)) "magnetic".toList "magnetic".toList 1
      (.inl rfl) (Ocb.Pysat.bname .ocb) exVPlan _ _ hp hs hl (by decide +kernel) out ho
    rcases hrec0.2 σ hσ with ⟨r, v, -, -, ⟨ti, tr, -, htr, -⟩, hv, hv1, -⟩ | ⟨-, hc⟩
    · obtain ⟨rfl, -⟩ := exOne r tr htr
      obtain ⟨B, g1, g2, g3, g4, g5⟩ := hrec 0 tr htr
      obtain ⟨L', M, rc, k1, -⟩ := ocbNorm_placed g1 g2 (lat := 71) (by rw [g3]; simp [InHem]) (g5 6) (heightAt (exSet ds) (.scalar (.fin 0)) σ)
      have k1' := (agrees_patch (tableLib id (fun _ _ _ => .error .valueError) (fun _ x _ _ => x) exMidCircles)).norm 0 (.fin 71) (.fin 6)
        (heightAt (exSet ds) (.scalar (.fin 0)) σ) _ k1
      rw [hlat, hmlt, k1', Except.ok.injEq] at hv
      subst hv
      rw [hix, hnan] at hv1
      simp at hv1
    · refine hc (by change [(0 : ℤ)].Pairwise (· ≤ ·); simp) hN (hch σ) 0 ⟨le_rfl, .inl rfl⟩ ⟨0, 0, ?_, ⟨le_rfl, rfl⟩, by simp⟩
      change [(0 : ℤ)][σ "t".toList]? = some 0
      rw [s1]
      rfl

end Ocb.XData
