import Verif.Props.PysatVect
import Verif.Props.SetOcbMore

/-! # C218: the vector columns added with a southern boundary -/

set_option autoImplicit false

namespace Ocb.Pysat

open Ocb.Files (Name)
open Ocb.Cycle Ocb.Time Ocb.Coord Ocb.Scale Ocb.Vec

/-! ## Specification -/

/-- The horizontal components in the frame of a southern circle, whose centre has the latitude `-(90 - rCent)`: north is the
direction away from the centre, east is 90 degrees to the right of it. -/
noncomputable def southNorth (B : Rec) (lat mlt n e : ℝ) : ℝ :=
  -towards (place lat mlt) (place (-(90 - B.rCent)) (B.phiCent / 15)) (horiz lat mlt n e)

noncomputable def southEast (B : Rec) (lat mlt n e : ℝ) : ℝ :=
  -rightOf (place lat mlt) (place (-(90 - B.rCent)) (B.phiCent / 15)) (horiz lat mlt n e)

/-- The parts of a vector that do not depend on the direction of the centre. -/
def Rest (B : Rec) (blat mlt n e z s : ℝ) (P : Name → V → Prop) : Prop :=
  P "ocb_z".toList (.fin (s * z)) ∧
  P "ocb_mag".toList (.fin (|s| * √(n ^ 2 + e ^ 2 + z ^ 2))) ∧
  P "unscaled_r".toList (.fin (B.r + B.rf mlt)) ∧
  P "scaled_r".toList (.fin (90 - |blat|))

/-- All six values of a vector in the frame of a southern circle. -/
def TurnedSouth (B : Rec) (blat lat mlt n e z s : ℝ) (P : Name → V → Prop) : Prop :=
  P "ocb_n".toList (.fin (s * southNorth B lat mlt n e)) ∧
  P "ocb_e".toList (.fin (s * southEast B lat mlt n e)) ∧ Rest B blat mlt n e z s P

/-! ## Lemmas -/

theorem south_centred {B : Rec} (h : B.rCent = 0) (lat mlt n e : ℝ) :
    southNorth B lat mlt n e = towards (place lat mlt) (place (90 - B.rCent) (B.phiCent / 15)) (horiz lat mlt n e) ∧
      southEast B lat mlt n e = rightOf (place lat mlt) (place (90 - B.rCent) (B.phiCent / 15)) (horiz lat mlt n e) := by
  have h90 : radians 90 = Real.pi / 2 := by unfold radians; ring
  unfold southNorth southEast
  rw [towards_eq, towards_eq, rightOf_eq, rightOf_eq, h, sub_zero, radians_neg, h90]
  simp only [tLen, tN, tE, Real.cos_neg, Real.sin_neg, Real.cos_pi_div_two, Real.sin_pi_div_two]
  constructor <;> ring_nf

/-! ## Theorems -/

variable {c : Cycler} {good : ℤ → Prop}

/-- C218, for the parts that do not depend on the direction of the centre: with a southern `OCBoundary`, a row with a finite
location either is blank, or there is a usable record within the tolerance (a nearest one, for rows and records in order)
such that the new columns of each vector in general position hold the scaled vertical component, the scaled magnitude and the two
radii.  Missing: the two horizontal components, for which it is false (`C218_south_refuted`). -/
theorem C218_rest_partial (lower : String → String) (hlow : lower "magnetic" = "magnetic")
    (conv : VD → Arr Tod → ℤ → Except PyErr VD) (user : ℕ → F → F → F → F) (C : Circles)
    (ht : C.times.length = C.recs.length) (hb : IsBoundary c good) (rec : ℤ) (h0 : -1 ≤ rec) (tol : ℤ) (htol : 0 ≤ tol) (t : Table)
    (n : Names) (height : Height) (hrec : Records c C.at (-1) C.blat) (b : Name) (p : Plan) (o : Out) (hp : plan t.vars n = .ok p)
    (hn : (written n p b).Nodup)
    (ho : addOcb (tableLib lower conv user C) c rec tol t n height "magnetic".toList "magnetic".toList (-1) b = .ok (some o))
    (i : ℕ) (lat mlt : ℝ) (hlat : t.cell n.mlat i = .fin lat) (hmlt : t.cell n.mlt i = .fin mlt) :
    (∃ r B, Cand good rec r ∧ RowClose c t tol i r ∧ C.at r = some B ∧
        (∀ j e entries f x y z s, p.vects[j]? = some (e, entries) →
          (∀ v ∈ p.vects.take j, ∀ k ∈ v.2.map Prod.fst, k ∈ entries.map Prod.fst) → Vector t i entries f x y z →
          General B lat mlt x y → Factor f ((B.r + B.rf mlt) / (90 - |C.blat|)) s →
          Rest B C.blat mlt x y z s fun a v => Cell o (keySet b e a) i v) ∧
        ((∀ a b, a ≤ b → b < t.rows → t.time a ≤ t.time b) → StrictOn c.times (Cand good rec) →
          ∀ k, Cand good rec k → RowNearer c t i r k)) ∨
      (Blank o i ∧
        ((∀ a b, a ≤ b → b < t.rows → t.time a ≤ t.time b) → NondecOn c.times (Cand good rec) →
          i ∈ usedRows t n.mlat p.need (-1) → ∀ k, Cand good rec k → ¬ RowClose c t tol i k)) := by
  rcases turned_rows lower hlow conv user C ht hb rec h0 tol htol t n height (-1) (.inr rfl) hrec b p o hp hn ho i lat mlt hlat hmlt with
    ⟨r, B, hc, hcl, hB, hv, hne⟩ | hbl
  · exact .inl ⟨r, B, hc, hcl, hB, fun j e entries f x y z s hj hk hV hg hf => (hv j e entries f x y z s hj hk hV hg hf).2.2, hne⟩
  · exact .inr hbl

/-- C218, for circles centred at the magnetic pole: all six columns of each vector in general position hold the values in the frame
of the southern circle.  Missing: the other circles, for which it is false (`C218_south_refuted`). -/
theorem C218_centred_partial (lower : String → String) (hlow : lower "magnetic" = "magnetic")
    (conv : VD → Arr Tod → ℤ → Except PyErr VD) (user : ℕ → F → F → F → F) (C : Circles)
    (ht : C.times.length = C.recs.length) (hb : IsBoundary c good) (rec : ℤ) (h0 : -1 ≤ rec) (tol : ℤ) (htol : 0 ≤ tol) (t : Table)
    (n : Names) (height : Height) (hrec : Records c C.at (-1) C.blat) (b : Name) (p : Plan) (o : Out) (hp : plan t.vars n = .ok p)
    (hn : (written n p b).Nodup)
    (ho : addOcb (tableLib lower conv user C) c rec tol t n height "magnetic".toList "magnetic".toList (-1) b = .ok (some o))
    (i : ℕ) (lat mlt : ℝ) (hlat : t.cell n.mlat i = .fin lat) (hmlt : t.cell n.mlt i = .fin mlt) :
    (∃ r B, Cand good rec r ∧ RowClose c t tol i r ∧ C.at r = some B ∧
        (∀ j e entries f x y z s, p.vects[j]? = some (e, entries) →
          (∀ v ∈ p.vects.take j, ∀ k ∈ v.2.map Prod.fst, k ∈ entries.map Prod.fst) → Vector t i entries f x y z →
          B.rCent = 0 → General B lat mlt x y → Factor f ((B.r + B.rf mlt) / (90 - |C.blat|)) s →
          TurnedSouth B C.blat lat mlt x y z s fun a v => Cell o (keySet b e a) i v) ∧
        ((∀ a b, a ≤ b → b < t.rows → t.time a ≤ t.time b) → StrictOn c.times (Cand good rec) →
          ∀ k, Cand good rec k → RowNearer c t i r k)) ∨
      (Blank o i ∧
        ((∀ a b, a ≤ b → b < t.rows → t.time a ≤ t.time b) → NondecOn c.times (Cand good rec) →
          i ∈ usedRows t n.mlat p.need (-1) → ∀ k, Cand good rec k → ¬ RowClose c t tol i k)) := by
  rcases turned_rows lower hlow conv user C ht hb rec h0 tol htol t n height (-1) (.inr rfl) hrec b p o hp hn ho i lat mlt hlat hmlt with
    ⟨r, B, hc, hcl, hB, hv, hne⟩ | hbl
  · refine .inl ⟨r, B, hc, hcl, hB, fun j e entries f x y z s hj hk hV h0 hg hf => ?_, hne⟩
    obtain ⟨h1, h2, h3⟩ := hv j e entries f x y z s hj hk hV hg hf
    obtain ⟨e1, e2⟩ := south_centred h0 lat mlt x y
    unfold TurnedSouth
    rw [e1, e2]
    exact ⟨h1, h2, h3⟩
  · exact .inr hbl

/-- C218 is false for every southern `OCBoundary` and table: whenever a row that is not blank has a vector to the east in
general position that is scaled with a factor other than 0, by a circle whose centre is not the pole, its new north component
has the sign opposite to that of the component away from the centre. -/
theorem C218_south_refuted (lower : String → String) (hlow : lower "magnetic" = "magnetic")
    (conv : VD → Arr Tod → ℤ → Except PyErr VD) (user : ℕ → F → F → F → F) (C : Circles)
    (ht : C.times.length = C.recs.length) (hb : IsBoundary c good) (rec : ℤ) (h0 : -1 ≤ rec) (tol : ℤ) (htol : 0 ≤ tol) (t : Table)
    (n : Names) (height : Height) (hrec : Records c C.at (-1) C.blat) (b : Name) (p : Plan) (o : Out) (hp : plan t.vars n = .ok p)
    (hn : (written n p b).Nodup)
    (ho : addOcb (tableLib lower conv user C) c rec tol t n height "magnetic".toList "magnetic".toList (-1) b = .ok (some o))
    (i : ℕ) (lat mlt : ℝ) (hlat : t.cell n.mlat i = .fin lat) (hmlt : t.cell n.mlt i = .fin mlt) (hnb : ¬ Blank o i) :
    ∃ r B, Cand good rec r ∧ RowClose c t tol i r ∧ C.at r = some B ∧
      ∀ j e entries f y z s, p.vects[j]? = some (e, entries) →
        (∀ v ∈ p.vects.take j, ∀ k ∈ v.2.map Prod.fst, k ∈ entries.map Prod.fst) → Vector t i entries f 0 y z →
        General B lat mlt 0 y → Factor f ((B.r + B.rf mlt) / (90 - |C.blat|)) s → 0 < B.rCent → s ≠ 0 →
        ∃ v, Cell o (keySet b e "ocb_n".toList) i (.fin v) ∧ v * (s * southNorth B lat mlt 0 y) < 0 ∧
          ¬ TurnedSouth B C.blat lat mlt 0 y z s fun a v => Cell o (keySet b e a) i v := by
  rcases turned_rows lower hlow conv user C ht hb rec h0 tol htol t n height (-1) (.inr rfl) hrec b p o hp hn ho i lat mlt hlat hmlt with
    ⟨r, B, hc, hcl, hB, hv, -⟩ | hbl
  · refine ⟨r, B, hc, hcl, hB, fun j e entries f y z s hj hk hV hg hf hr hs => ?_⟩
    have h1 := (hv j e entries f 0 y z s hj hk hV hg hf).1
    have hm := mirror_sign hg.lat hr hg.cent.2 hg.off (fun hy => hg.vec ⟨rfl, hy⟩)
    have hlt : s * towards (place lat mlt) (place (90 - B.rCent) (B.phiCent / 15)) (horiz lat mlt 0 y) *
        (s * southNorth B lat mlt 0 y) < 0 := by
      have : s * towards (place lat mlt) (place (90 - B.rCent) (B.phiCent / 15)) (horiz lat mlt 0 y) *
          (s * southNorth B lat mlt 0 y) =
          s ^ 2 * (towards (place lat mlt) (place (90 - B.rCent) (B.phiCent / 15)) (horiz lat mlt 0 y) *
            (-towards (place lat mlt) (place (-(90 - B.rCent)) (B.phiCent / 15)) (horiz lat mlt 0 y))) := by
        unfold southNorth
        ring
      rw [this]
      exact mul_neg_of_pos_of_neg (by positivity) hm
    refine ⟨_, h1, hlt, fun h2 => ?_⟩
    obtain ⟨c1, e1, w1⟩ := h1
    obtain ⟨c2, e2, w2⟩ := h2.1
    rw [e1, Option.some.injEq] at e2
    subst e2
    rw [w1, Fl.fin.injEq] at w2
    rw [w2] at hlt
    nlinarith [mul_self_nonneg (s * southNorth B lat mlt 0 y)]
  · exact absurd hbl.1 hnb

/-! ## An instance -/

/-- A circle of 16 degrees, `d` degrees from the southern pole -/
noncomputable def exSouth (d : ℝ) : Rec := ⟨90, d, 16, fun _ => 0, -1, -74⟩

noncomputable def exSouths (d : ℝ) : Circles := ⟨[exSouth d], [⟨0, 0, 0, 0⟩], -74, -1, fun _ _ _ _ _ => .error .valueError⟩

/-- Two rows at the latitude -1 and the local time 1, with a vector of length 1 to the east -/
def exSouthTable : Table :=
  { vars := ["lat".toList, "mlt".toList, "ve".toList], rows := 2
    cell := fun k _ => if k = "lat".toList then .fin (-1) else .fin 1
    time := fun i => 1000 * i }

def exSouthNames : Names :=
  ⟨"lat".toList, "mlt".toList, ["vel".toList], [], [("vel".toList, [("vect_e".toList, .text "ve".toList)])]⟩

def exSouthPlan : Plan :=
  ⟨[], [], [("vel".toList, [("vect_e".toList, .text "ve".toList), ("scale_func".toList, .fn .evar)])],
    ["lat".toList, "mlt".toList, "ve".toList]⟩

theorem exSouthUsed : usedRows exSouthTable exSouthNames.mlat exSouthPlan.need (-1) = [0, 1] := by
  have h : ∀ i, rowUsed exSouthTable exSouthNames.mlat exSouthPlan.need (-1) i = true := by
    intro i
    have a1 : (-1 : ℝ) ≤ 1 := by norm_num
    have a2 : ¬ (1 : ℝ) ≤ -1 := by norm_num
    simp [rowUsed, exSouthTable, exSouthPlan, exSouthNames, a1, a2, signIs, sgn, rowMax, skipMax, isFin, Fl.le]
  rw [usedRows]
  have : List.range exSouthTable.rows = [0, 1] := rfl
  rw [this]
  simp [h]

theorem exSouthCell (i : ℕ) : exSouthTable.cell exSouthNames.mlat i = .fin (-1) ∧ exSouthTable.cell exSouthNames.mlt i = .fin 1 ∧
    exSouthTable.cell "ve".toList i = .fin 1 := by
  refine ⟨?_, ?_, ?_⟩
  · simp only [exSouthTable, exSouthNames, if_true]
  · simp only [exSouthTable, exSouthNames]
    exact if_neg (by decide +kernel)
  · simp only [exSouthTable]
    exact if_neg (by decide +kernel)

theorem exSouthVector (i : ℕ) :
    Vector exSouthTable i [("vect_e".toList, .text "ve".toList), ("scale_func".toList, .fn .evar)] .evar 0 1 0 :=
  ⟨by decide, by decide, by simp, .inr ⟨by decide, rfl⟩, .inl ⟨"ve".toList, by simp, by decide, (exSouthCell i).2.2⟩, .inr ⟨by decide, rfl⟩⟩

theorem exSouthGeneral {d : ℝ} (h0 : 0 ≤ d) (h1 : d < 90) : General (exSouth d) (-1) 1 0 1 := by
  refine ⟨by norm_num, fun k hk => ?_, by norm_num, h0, h1⟩
  have : (5 : ℝ) = 12 * k := by
    simp only [exSouth] at hk
    linarith
  have : (5 : ℤ) = 12 * k := by exact_mod_cast this
  omega

theorem exSouthValid (d : ℝ) : (exSouth d).Valid :=
  ⟨.inr rfl, by norm_num [exSouth], by rw [abs_lt]; constructor <;> norm_num [exSouth]⟩

theorem exSouthOne : ∀ k t, At [0] k t → k = 0 ∧ t = 0 := by
  intro k t ⟨hk, ht⟩
  match hk' : k.toNat, ht with
  | 0, ht => simp at ht; omega
  | m + 1, ht => simp at ht

theorem exSouthRecords (d : ℝ) : Records (dualCycler [0]) (exSouths d).at (-1) (exSouths d).blat := by
  intro r tr hr
  obtain ⟨rfl, -⟩ := exSouthOne r tr hr
  exact ⟨exSouth d, rfl, exSouthValid d, by simp [exSouth], rfl, fun m => by norm_num [exSouth]⟩

theorem exSouthFactor (d : ℝ) : ((exSouth d).r + (exSouth d).rf 1) / (90 - |(exSouths d).blat|) = 1 := by
  simp only [exSouths]
  rw [abs_of_neg (by norm_num)]
  norm_num [exSouth]

theorem exSouthRun {d : ℝ} (h0 : 0 ≤ d) (hd : d < 90) :
    ∃ o, addOcb (tableLib id (fun _ _ _ => .error .valueError) (fun _ x _ _ => x) (exSouths d)) (dualCycler [0]) 0 60 exSouthTable
      exSouthNames (.column fun _ => .fin 0) "magnetic".toList "magnetic".toList (-1) (bname .ocb) = .ok (some o) ∧ ¬ Blank o 0 ∧
      Rest (exSouth d) (-74) 1 0 1 0 1 (fun a v => Cell o (keySet (bname .ocb) "vel".toList a) 0 v) := by
  have hb : IsBoundary (dualCycler [0]) (fun _ => True) := .dual [0] (by simp)
  have hp : plan exSouthTable.vars exSouthNames = .ok exSouthPlan := by decide
  have hn : (written exSouthNames exSouthPlan (bname .ocb)).Nodup := by decide
  have hT : ∀ a b, a ≤ b → b < exSouthTable.rows → exSouthTable.time a ≤ exSouthTable.time b := by
    intro a b hab _
    simp only [exSouthTable]
    omega
  have h1 := exSouthOne
  have hN : NondecOn (dualCycler [0]).times (Cand (fun _ => True) 0) := by
    intro a b s t _ _ _ hs ht
    have := h1 a s hs
    have := h1 b t ht
    omega
  have hat : (exSouths d).at 0 = some (exSouth d) := rfl
  have hrec := exSouthRecords d
  have hj : ∀ j e entries, exSouthPlan.vects[j]? = some (e, entries) → j = 0 ∧
      entries = [("vect_e".toList, .text "ve".toList), ("scale_func".toList, .fn .evar)] := by
    intro j e entries h
    match j, h with
    | 0, h =>
      simp only [exSouthPlan, List.getElem?_cons_zero, Option.some.injEq, Prod.mk.injEq] at h
      exact ⟨rfl, h.2.symm⟩
    | j + 1, h => simp [exSouthPlan] at h
  have hfac := exSouthFactor d
  obtain ⟨o, ho⟩ := turned_succeed id rfl (fun _ _ _ => .error .valueError) (fun _ x _ _ => x) (exSouths d) rfl hb 0
    (by decide) 60 (by decide) exSouthTable exSouthNames (fun _ => .fin 0) (-1) (.inr rfl) hrec .ocb exSouthPlan hp hn (by decide)
    (by unfold Clean; decide) (by decide) hT hN (by simp [dualCycler]) (by
      rw [exSouthUsed]
      rintro ⟨-, ⟨h, -⟩ | ⟨-, h⟩⟩
      · simp at h
      · have := h 0 0 0 ⟨le_rfl, rfl⟩ ⟨le_rfl, .inl rfl⟩ (by simp [exSouthTable])
        omega) (fun i _ => ⟨-1, 1, (exSouthCell i).1, (exSouthCell i).2.1, fun j e entries h => by
          obtain ⟨rfl, rfl⟩ := hj j e entries h
          refine ⟨by simp, .evar, 0, 1, 0, .inl rfl, exSouthVector i, fun r tr B hr hB => ?_⟩
          obtain ⟨rfl, -⟩ := h1 r tr hr
          rw [hat, Option.some.injEq] at hB
          subst hB
          exact exSouthGeneral h0 hd⟩)
  have hrest := C218_rest_partial id rfl (fun _ _ _ => .error .valueError) (fun _ x _ _ => x) (exSouths d) rfl hb 0 (by decide) 60 (by decide)
    exSouthTable exSouthNames (.column fun _ => .fin 0) hrec (bname .ocb) exSouthPlan o hp hn ho 0 (-1) 1 (exSouthCell 0).1 (exSouthCell 0).2.1
  have hR : Rest (exSouth d) (-74) 1 0 1 0 1 (fun a v => Cell o (keySet (bname .ocb) "vel".toList a) 0 v) := by
    rcases hrest with ⟨r, B, -, ⟨tr, hr, -⟩, hB, hv, -⟩ | ⟨-, hc⟩
    · obtain ⟨rfl, -⟩ := h1 r tr hr
      rw [hat, Option.some.injEq] at hB
      subst hB
      exact hv 0 "vel".toList _ .evar 0 1 0 1 rfl (by simp) (exSouthVector 0) (exSouthGeneral h0 hd) (by rw [hfac]; exact .evar 1)
    · exact absurd ⟨0, ⟨le_rfl, rfl⟩, by simp [exSouthTable]⟩
        (hc hT hN (by rw [exSouthUsed]; simp) 0 ⟨le_rfl, .inl rfl⟩)
  have hnb : ¬ Blank o 0 := by
    intro hbl
    obtain ⟨cc, e1, e2⟩ := hR.1
    rw [hbl _ cc e1] at e2
    cases e2
  exact ⟨o, ho, hnb, hR⟩

/-- The hypotheses of `C218_rest_partial` and `C218_south_refuted` hold: in the first row the vector to the east gets a north
component of the wrong sign, and the magnitude 1. -/
example : ∃ o, addOcb (tableLib id (fun _ _ _ => .error .valueError) (fun _ x _ _ => x) (exSouths 5)) (dualCycler [0]) 0 60 exSouthTable
    exSouthNames (.column fun _ => .fin 0) "magnetic".toList "magnetic".toList (-1) (bname .ocb) = .ok (some o) ∧
    Rest (exSouth 5) (-74) 1 0 1 0 1 (fun a v => Cell o (keySet (bname .ocb) "vel".toList a) 0 v) ∧
    ∃ v, Cell o (keySet (bname .ocb) "vel".toList "ocb_n".toList) 0 (.fin v) ∧ v * (1 * southNorth (exSouth 5) (-1) 1 0 1) < 0 := by
  obtain ⟨o, ho, hnb, hR⟩ := exSouthRun (d := 5) (by norm_num) (by norm_num)
  refine ⟨o, ho, hR, ?_⟩
  obtain ⟨r, B, -, ⟨tr, hr, -⟩, hB, hv⟩ := C218_south_refuted id rfl (fun _ _ _ => .error .valueError) (fun _ x _ _ => x) (exSouths 5) rfl
    (.dual [0] (by simp)) 0 (by decide) 60 (by decide) exSouthTable exSouthNames (.column fun _ => .fin 0) (exSouthRecords 5) (bname .ocb)
    exSouthPlan o (by decide) (by decide) ho 0 (-1) 1 (exSouthCell 0).1 (exSouthCell 0).2.1 hnb
  obtain ⟨rfl, -⟩ := exSouthOne r tr hr
  obtain rfl : exSouth 5 = B := Option.some.inj hB
  obtain ⟨v, v1, v2, -⟩ := hv 0 "vel".toList _ .evar 1 0 1 rfl (by simp) (exSouthVector 0) (exSouthGeneral (by norm_num) (by norm_num))
    (by rw [exSouthFactor]; exact .evar 1) (by norm_num [exSouth]) one_ne_zero
  exact ⟨v, v1, v2⟩

/-- The hypotheses of `C218_centred_partial` hold for the circle around the pole. -/
example : ∃ o, addOcb (tableLib id (fun _ _ _ => .error .valueError) (fun _ x _ _ => x) (exSouths 0)) (dualCycler [0]) 0 60 exSouthTable
    exSouthNames (.column fun _ => .fin 0) "magnetic".toList "magnetic".toList (-1) (bname .ocb) = .ok (some o) ∧
    TurnedSouth (exSouth 0) (-74) (-1) 1 0 1 0 1 (fun a v => Cell o (keySet (bname .ocb) "vel".toList a) 0 v) := by
  obtain ⟨o, ho, hnb, -⟩ := exSouthRun (d := 0) le_rfl (by norm_num)
  refine ⟨o, ho, ?_⟩
  rcases C218_centred_partial id rfl (fun _ _ _ => .error .valueError) (fun _ x _ _ => x) (exSouths 0) rfl
    (.dual [0] (by simp)) 0 (by decide) 60 (by decide) exSouthTable exSouthNames (.column fun _ => .fin 0) (exSouthRecords 0) (bname .ocb)
    exSouthPlan o (by decide) (by decide) ho 0 (-1) 1 (exSouthCell 0).1 (exSouthCell 0).2.1 with
    ⟨r, B, -, ⟨tr, hr, -⟩, hB, hv, -⟩ | ⟨hbl, -⟩
  · obtain ⟨rfl, -⟩ := exSouthOne r tr hr
    obtain rfl : exSouth 0 = B := Option.some.inj hB
    exact hv 0 "vel".toList _ .evar 0 1 0 1 rfl (by simp) (exSouthVector 0) rfl (exSouthGeneral le_rfl (by norm_num))
      (by rw [exSouthFactor]; exact .evar 1)
  · exact absurd hbl hnb

end Ocb.Pysat
