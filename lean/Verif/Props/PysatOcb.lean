import Verif.Model.PysatOcb
import Verif.Props.Coord
import Verif.Props.PysatRows
import Verif.Props.XData

/-! # C213: where the new columns place the rows of a table and the cells of a set -/

set_option autoImplicit false

namespace Ocb.Pysat

open Ocb.Files Ocb.Cycle Ocb.Coord

/-! ## Specification -/

/-- The OCB location `L`, `M` and the correction `c` stand for the magnetic location `lat`, `mlt` and the boundary `B`:
the colatitude is the distance from the centre in units of the corrected radius, the boundary is at the reference
latitude, its inside poleward of it, and `revert_coord` with these three values gives the location back. -/
structure Placed (B : Rec) (lat mlt L M c : ℝ) : Prop where
  corr : c = B.rf mlt
  hour : 0 ≤ M ∧ M < 24
  colat : colat B.hem L = distCentre B lat mlt * (90 - |B.blat|) / (B.r + c)
  inside : distCentre B lat mlt < B.r + c ↔ B.hem * B.blat < B.hem * L
  edge : distCentre B lat mlt = B.r + c ↔ L = B.blat
  outside : B.r + c < distCentre B lat mlt ↔ B.hem * L < B.hem * B.blat
  back : |lat| ≤ 90 → ∃ m, revertPt B L M c = .ok (lat, m) ∧ 0 ≤ m ∧ m < 24 ∧ (|lat| < 90 → SameHour m mlt)

/-- The records at the times of the boundary object: circles of one hemisphere with one reference latitude and positive
corrected radii. -/
def Records (c : Cycler) (recs : ℤ → Option Rec) (h : ℤ) (blat : ℝ) : Prop :=
  ∀ r tr, At c.times r tr → ∃ B, recs r = some B ∧ B.Valid ∧ B.hem = h ∧ B.blat = blat ∧ ∀ m, 0 < B.r + B.rf m

/-! ## Lemmas -/

theorem sgn_hem {lat : ℝ} {h : ℤ} (hh : h = 1 ∨ h = -1) (hl : sgn lat = h) : InHem h lat := by
  rcases hh with rfl | rfl
  · simp [InHem, sgn_pos.1 hl]
  · simp [InHem, sgn_neg.1 hl]

theorem hem_abs {hem lat : ℝ} (hh : hem = 1 ∨ hem = -1) (hl : InHem hem lat) : hem * lat = |lat| := by
  unfold InHem at hl
  rcases hh with rfl | rfl
  · have : 0 < lat := by
      by_contra hc
      rcases lt_or_eq_of_le (not_lt.1 hc) with h | h
      · rw [sign_neg h] at hl; norm_num at hl
      · rw [h] at hl; norm_num at hl
    rw [one_mul, abs_of_pos this]
  · have : lat < 0 := by
      by_contra hc
      rcases lt_or_eq_of_le (not_lt.1 hc) with h | h
      · rw [sign_pos h] at hl; norm_num at hl
      · rw [← h] at hl; norm_num at hl
    rw [neg_one_mul, abs_of_neg this]

theorem ocbNorm_placed {recs : ℤ → Option Rec} {r : ℤ} {B : Rec} (hr : recs r = some B) (hB : B.Valid) {lat mlt : ℝ} (hl : InHem B.hem lat)
    (hp : 0 < B.r + B.rf mlt) (height : V) :
    ∃ L M c, ocbNorm recs r (.fin lat) (.fin mlt) height = .ok (.fin L, .fin M, .fin c) ∧ Placed B lat mlt L M c := by
  obtain ⟨out, lats, h1, h2⟩ := C27_normal_entries B hB [(some lat, some mlt)]
  cases h2 with
  | cons h3 h4 =>
    rename_i o os
    rcases h3 with ⟨lat', mlt', e, -, L, M, n1, n2, n3, n4, -⟩ | ⟨hno, -⟩
    · simp only [Prod.mk.injEq, Option.some.injEq] at e
      obtain ⟨rfl, rfl⟩ := e
      refine ⟨L, M, B.rf mlt, ?_, ?_⟩
      · simp only [ocbNorm, entry, hr, h1, bind, Except.bind, n2, ofEntry]
      · obtain ⟨L1, M1, a1, a2⟩ := C24_colatitude B hB lat mlt hp
        obtain ⟨L2, M2, b1, b2, b3, b4, -⟩ := C24_boundary_circle B hB lat mlt hp
        rw [n1] at a1 b1
        simp only [Except.ok.injEq, Prod.mk.injEq, and_true] at a1 b1
        obtain ⟨rfl, rfl⟩ := a1
        obtain ⟨rfl, rfl⟩ := b1
        refine ⟨rfl, ⟨n3, n4⟩, a2, b3, b2, b4, fun hle => ?_⟩
        have ha := hem_abs hB.hem hl
        obtain ⟨L3, M3, m, c1, c2, c3, c4, c5⟩ := C25_revert_normal B hB lat mlt hp.ne' (by rw [ha]; exact hle)
        rw [n1] at c1
        simp only [Except.ok.injEq, Prod.mk.injEq, and_true] at c1
        obtain ⟨rfl, rfl⟩ := c1
        exact ⟨m, c2, c3, c4, fun hlt => c5 (by rw [ha]; exact hlt)⟩
    · exact absurd hl (hno lat mlt rfl)

theorem used_sign {t : Table} {mlat : Name} {need : List Name} {h : ℤ} {i : ℕ} {lat : ℝ} (hu : i ∈ usedRows t mlat need h)
    (hl : t.cell mlat i = .fin lat) : sgn lat = h := by
  simp only [usedRows, List.mem_filter, rowUsed, Bool.and_eq_true, hl, signIs, beq_iff_eq] at hu
  exact hu.2.1

/-! ## Theorems -/

variable {c : Cycler} {good : ℤ → Prop}

/-- C213: when `add_ocb_to_data` adds the columns of an `OCBoundary` to a table with magnetic coordinates, a row with a
finite location either is blank, or its three new coordinates place it relative to the circle of a usable record within the
tolerance (a nearest one, for rows and records in order), `revert_coord` with that record gives the row's own location
back, and the scaled variables are the values of the row times the ratio of the radii, squared for curls. -/
theorem C213_rows (recs : ℤ → Option Rec) (blat : ℝ) (vect : ℤ → ℕ → V → V → Init → Except PyErr (Name → V))
    (hb : IsBoundary c good) (rec : ℤ) (h0 : -1 ≤ rec) (tol : ℤ) (htol : 0 ≤ tol) (t : Table)
    (n : Names) (height : Height) (loc vec : Name) (h : ℤ) (hh : h = 1 ∨ h = -1) (hrec : Records c recs h blat) (b : Name)
    (p : Plan) (o : Out) (hp : plan t.vars n = .ok p) (hn : (written n p b).Nodup)
    (ho : addOcb (ocbLib recs blat vect) c rec tol t n height loc vec h b = .ok (some o)) (i : ℕ) (lat mlt : ℝ)
    (hlat : t.cell n.mlat i = .fin lat) (hmlt : t.cell n.mlt i = .fin mlt) :
    (∃ r B L M rc, Cand good rec r ∧ RowClose c t tol i r ∧ recs r = some B ∧ InHem B.hem lat ∧
        Cell o (under n.mlat b) i (.fin L) ∧ Cell o (under n.mlt b) i (.fin M) ∧
        Cell o (under "r_corr".toList b) i (.fin rc) ∧ Placed B lat mlt L M rc ∧
        (∀ e ∈ p.evars, ∀ x, t.cell e i = .fin x → Cell o (under e b) i (.fin (x * ((B.r + B.rf mlt) / (90 - |blat|))))) ∧
        (∀ e ∈ p.curls, ∀ x, t.cell e i = .fin x → Cell o (under e b) i (.fin (x * ((B.r + B.rf mlt) / (90 - |blat|)) ^ 2))) ∧
        ((∀ a b, a ≤ b → b < t.rows → t.time a ≤ t.time b) → StrictOn c.times (Cand good rec) →
          ∀ k, Cand good rec k → RowNearer c t i r k)) ∨
      (Blank o i ∧
        ((∀ a b, a ≤ b → b < t.rows → t.time a ≤ t.time b) → NondecOn c.times (Cand good rec) →
          i ∈ usedRows t n.mlat p.need h → ∀ k, Cand good rec k → ¬ RowClose c t tol i k)) := by
  rcases C94_rows (ocbLib recs blat vect) hb rec h0 tol htol t n height loc vec h b p o hp hn ho i with
    ⟨r, hu, hc, hcl, ⟨hgt, v, -, f2, f3, f4, f5, -, f7, f8⟩, hne⟩ | hbl
  · left
    obtain ⟨tr, htr, -⟩ := id hcl
    obtain ⟨B, g1, g2, g3, g4, g5⟩ := hrec r tr htr
    have hin : InHem B.hem lat := by
      rw [g3]
      exact sgn_hem hh (used_sign hu hlat)
    obtain ⟨L, M, rc, k1, k2⟩ := ocbNorm_placed g1 g2 hin (g5 mlt) hgt
    have f2 : ocbNorm recs r (t.cell n.mlat i) (t.cell n.mlt i) hgt = .ok v := f2
    rw [hlat, hmlt, k1, Except.ok.injEq] at f2
    subst f2
    have hrad : (ocbLib recs blat vect).radius r (.fin rc) = .fin (B.r + B.rf mlt) := by
      simp only [ocbLib, ocbRadius, g1, entry, k2.corr]
    refine ⟨r, B, L, M, rc, hc, hcl, g1, hin, f3, f4, f5, k2, fun e he x hx => ?_, fun e he x hx => ?_, hne⟩
    · obtain ⟨w, w1, w2⟩ := f7 e he
      rw [hrad, hx] at w1
      simp only [ocbLib, ocbScale, entry, Except.ok.injEq] at w1
      rw [← w1, Ocb.Scale.normalEvar, mul_div_assoc] at w2
      exact w2
    · obtain ⟨w, w1, w2⟩ := f8 e he
      rw [hrad, hx] at w1
      simp only [ocbLib, ocbScale, entry, Except.ok.injEq] at w1
      rw [← w1, Ocb.Scale.normalCurlEvar] at w2
      exact w2
  · exact .inr hbl

/-! ## An instance -/

/-- The library for one circle of 16 degrees, 5 degrees from the pole -/
noncomputable def exOcbLib : Lib := ocbLib (fun _ => some exRec) 74 fun _ _ _ _ _ => .ok fun _ => .fin 2

theorem exOcbLib_total : Total exOcbLib := by
  refine ⟨fun r a m hgt => ?_, fun _ _ _ _ _ => ⟨_, rfl⟩, fun f x y => ?_⟩
  · obtain ⟨out, lats, h1, h2⟩ := C27_normal_entries exRec exRec_valid [(entry a, entry m)]
    cases h2 with
    | cons h3 h4 =>
      rename_i o os
      exact ⟨(ofEntry o.1, ofEntry o.2.1, ofEntry o.2.2), by simp only [exOcbLib, ocbLib, ocbNorm, h1, bind, Except.bind]⟩
  · simp only [exOcbLib, ocbLib, ocbScale]
    split
    · exact ⟨_, rfl⟩
    · exact ⟨_, rfl⟩

theorem exRecords : Records (dualCycler [0]) (fun _ => some exRec) 1 74 :=
  fun _ _ _ => ⟨exRec, rfl, exRec_valid, by simp [exRec], rfl, fun m => by norm_num [exRec]⟩

/-- The hypotheses of `C213_rows` hold for the table of C94 and one record at time 0: the first row is placed and its
potential of 1 is scaled by 16 / 16. -/
example : ∃ o, addOcb exOcbLib (dualCycler [0]) 0 60 exTable exNames (.column fun _ => .fin 0) [] [] 1 (bname .ocb) =
    .ok (some o) ∧ (∃ L M, Cell o (under "lat".toList (bname .ocb)) 0 (.fin L) ∧ Cell o (under "mlt".toList (bname .ocb)) 0 (.fin M) ∧
      Placed exRec 1 1 L M 0) ∧ Cell o (under "phi".toList (bname .ocb)) 0 (.fin 1) := by
  have hb : IsBoundary (dualCycler [0]) (fun _ => True) := .dual [0] (by simp)
  have hp : plan exTable.vars exNames = .ok exPlan := by decide
  have hn : (written exNames exPlan (bname .ocb)).Nodup := by decide
  have hT : ∀ a b, a ≤ b → b < exTable.rows → exTable.time a ≤ exTable.time b := by
    intro a b hab _
    simp only [exTable]
    omega
  have h1 : ∀ k t, At [0] k t → k = 0 ∧ t = 0 := by
    intro k t ⟨hk, ht⟩
    match hk' : k.toNat, ht with
    | 0, ht => simp at ht; omega
    | m + 1, ht => simp at ht
  have hN : NondecOn (dualCycler [0]).times (Cand (fun _ => True) 0) := by
    intro a b s t _ _ _ hs ht
    have := h1 a s hs
    have := h1 b t ht
    omega
  obtain ⟨o, ho⟩ := C94_succeeds exOcbLib exOcbLib_total hb 0
    (by decide) 60 (by decide) exTable exNames (fun _ => .fin 0) [] [] 1 .ocb exPlan hp hn (by decide)
    (by unfold Clean; decide) (by decide) hT hN (by simp [dualCycler]) (by
      rw [exUsed]
      rintro ⟨-, ⟨h, -⟩ | ⟨-, h⟩⟩
      · simp at h
      · have := h 0 0 0 ⟨le_rfl, rfl⟩ ⟨le_rfl, .inl rfl⟩ (by simp [exTable])
        omega)
  have hrow := C213_rows _ 74 _ hb 0 (by decide) 60 (by decide) exTable exNames (.column fun _ => .fin 0) [] [] 1
    (.inl rfl) exRecords (bname .ocb) exPlan o hp hn ho 0 1 1 rfl rfl
  refine ⟨o, ho, ?_⟩
  rcases hrow with ⟨r, B, L, M, rc, -, -, hB, -, c1, c2, c3, hpl, hev, -⟩ | ⟨-, hc⟩
  · obtain rfl : exRec = B := by simpa using hB
    obtain rfl : rc = 0 := hpl.corr
    refine ⟨⟨L, M, c1, c2, hpl⟩, ?_⟩
    have := hev "phi".toList (by decide) 1 rfl
    have e : (1 : ℝ) * ((exRec.r + exRec.rf 1) / (90 - |(74 : ℝ)|)) = 1 := by
      rw [abs_of_pos (by norm_num)]
      norm_num [exRec]
    rw [e] at this
    exact this
  · exact absurd ⟨0, ⟨le_rfl, rfl⟩, by simp [exTable]⟩
      (hc hT hN (by rw [exUsed]; simp) 0 ⟨le_rfl, .inl rfl⟩)

end Ocb.Pysat

namespace Ocb.XData

open Ocb.Files (Name)
open Ocb.Grid
open Ocb.Cycle
open Ocb.Coord
open Ocb.Pysat (V Lib Names Plan plan under Placed Records ocbLib ocbNorm ocbRadius ocbScale entry ocbNorm_placed)

variable {c : Cycler} {good : ℤ → Prop}

/-- C213: the coordinates place the cells of a set with named dimensions in the same way, in the layouts of C210 and for
locations of the hemisphere asked for. -/
theorem C213_cells (recs : ℤ → Option Rec) (blat : ℝ)
    (vect : ℤ → ℕ → V → V → Ocb.Pysat.Init → Except PyErr (Name → V)) (hb : IsBoundary c good) (rec : ℤ) (h0 : -1 ≤ rec) (tol : ℤ)
    (htol : 0 ≤ tol) (S : XSet) (n : Names) (hgt : Height) (lc vc : Name) (h : ℤ) (hh : h = 1 ∨ h = -1)
    (hrec : Records c recs h blat) (b : Name) (p : Plan) (base extra : List Name)
    (hp : plan (S.vars ++ S.coords) n = .ok p) (hs : Sound S p.need)
    (hl : Layout S n.mlat n.mlt p.need hgt base extra)
    (hk : (Ocb.Pysat.written n p b).Nodup) (out : Name → Arr V)
    (ho : addX (ocbLib recs blat vect) c rec tol S n hgt lc vc h b = .ok (some out)) (σ : Name → ℕ)
    (hσ : ∀ d ∈ base ++ extra, σ d < S.len d) (lat mlt : ℝ) (hlat : cell S n.mlat σ = .fin lat) (hmlt : cell S n.mlt σ = .fin mlt)
    (hin : InHem h lat) :
    (∃ r B L M rc, Cand good rec r ∧ TimeClose c S tol (σ S.index) r ∧ recs r = some B ∧ InHem B.hem lat ∧
      (out (under n.mlat b)).val ((base ++ extra).map σ) = .fin L ∧
      (out (under n.mlt b)).val ((base ++ extra).map σ) = .fin M ∧
      (out (under "r_corr".toList b)).val ((base ++ extra).map σ) = .fin rc ∧ Placed B lat mlt L M rc ∧
      (S.time.Pairwise (· ≤ ·) → StrictOn c.times (Cand good rec) →
        ∀ k, Cand good rec k → TimeNearer c S (σ S.index) r k)) ∨
    ((∀ k, (out k).val ((base ++ extra).map σ) = .nan) ∧
      (S.time.Pairwise (· ≤ ·) → NondecOn c.times (Cand good rec) → Chosen S n.mlat p.need h σ →
        ∀ k, Cand good rec k → ¬ TimeClose c S tol (σ S.index) k)) := by
  rcases (C210_cells_partial (ocbLib recs blat vect) hb rec h0 tol htol S n hgt lc vc h hh b p base extra hp hs hl hk out ho).2 σ hσ with
    ⟨r, v, -, hc, hcl, f2, f3, f4, f5, hne⟩ | hbl
  · left
    obtain ⟨ti, tr, -, htr, -⟩ := id hcl
    obtain ⟨B, g1, g2, g3, g4, g5⟩ := hrec r tr htr
    have hinB : InHem B.hem lat := by rw [g3]; exact hin
    obtain ⟨L, M, rc, k1, k2⟩ := ocbNorm_placed g1 g2 hinB (g5 mlt) (heightAt S hgt σ)
    have f2 : ocbNorm recs r (cell S n.mlat σ) (cell S n.mlt σ) (heightAt S hgt σ) = .ok v := f2
    rw [hlat, hmlt, k1, Except.ok.injEq] at f2
    subst f2
    exact ⟨r, B, L, M, rc, hc, hcl, g1, hinB, f3, f4, f5, k2, hne⟩
  · exact .inr hbl

/-- C213: a scaled variable of a set, in the layouts of C211, is the value with the same labels times the ratio of the
corrected radius of a usable record within the tolerance and the reference radius, squared for curls. -/
theorem C213_scaled (recs : ℤ → Option Rec) (blat : ℝ)
    (vect : ℤ → ℕ → V → V → Ocb.Pysat.Init → Except PyErr (Name → V)) (hb : IsBoundary c good) (rec : ℤ) (h0 : -1 ≤ rec) (tol : ℤ)
    (htol : 0 ≤ tol) (S : XSet) (n : Names) (hgt : Height) (lc vc : Name) (h : ℤ) (hh : h = 1 ∨ h = -1)
    (hrec : Records c recs h blat) (b : Name) (p : Plan) (base extra : List Name)
    (hp : plan (S.vars ++ S.coords) n = .ok p) (hs : Sound S p.need)
    (hl : Layout S n.mlat n.mlt p.need hgt base extra) (hord : InOrder S n.mlt p.need (base ++ extra))
    (hk : (Ocb.Pysat.written n p b).Nodup)
    (he : ∀ e ∈ p.evars ++ p.curls, e ∈ S.vars ∧ S.index ∈ (S.arr e).dims ∧
      (base ++ extra).filter (· ∈ (S.arr e).dims) <+: base ++ extra) (out : Name → Arr V)
    (ho : addX (ocbLib recs blat vect) c rec tol S n hgt lc vc h b = .ok (some out)) (σ : Name → ℕ)
    (hσ : ∀ d ∈ base ++ extra, σ d < S.len d) (lat mlt : ℝ) (hlat : cell S n.mlat σ = .fin lat) (hmlt : cell S n.mlt σ = .fin mlt)
    (hin : InHem h lat) :
    (∃ r B, Cand good rec r ∧ TimeClose c S tol (σ S.index) r ∧ recs r = some B ∧
      (out (under "r_corr".toList b)).val ((base ++ extra).map σ) = .fin (B.rf mlt) ∧
      (∀ e ∈ p.evars, ∀ x, cell S e σ = .fin x →
        (out (under e b)).val ((base ++ extra).map σ) = .fin (x * ((B.r + B.rf mlt) / (90 - |blat|)))) ∧
      ∀ e ∈ p.curls, ∀ x, cell S e σ = .fin x →
        (out (under e b)).val ((base ++ extra).map σ) = .fin (x * ((B.r + B.rf mlt) / (90 - |blat|)) ^ 2)) ∨
    ∀ k, (out k).val ((base ++ extra).map σ) = .nan := by
  rcases C211_scaled_partial (ocbLib recs blat vect) hb rec h0 tol htol S n hgt lc vc h hh b p base extra hp hs hl hord hk he out ho σ hσ with
    ⟨r, v, -, hc, hcl, f2, f5, f7, f8⟩ | hbl
  · left
    obtain ⟨ti, tr, -, htr, -⟩ := id hcl
    obtain ⟨B, g1, g2, g3, g4, g5⟩ := hrec r tr htr
    have hinB : InHem B.hem lat := by rw [g3]; exact hin
    obtain ⟨L, M, rc, k1, k2⟩ := ocbNorm_placed g1 g2 hinB (g5 mlt) (heightAt S hgt σ)
    have f2 : ocbNorm recs r (cell S n.mlat σ) (cell S n.mlt σ) (heightAt S hgt σ) = .ok v := f2
    rw [hlat, hmlt, k1, Except.ok.injEq] at f2
    subst f2
    have hrad : (ocbLib recs blat vect).radius r (.fin rc) = .fin (B.r + B.rf mlt) := by
      simp only [ocbLib, ocbRadius, g1, entry, k2.corr]
    refine ⟨r, B, hc, hcl, g1, by rw [f5, k2.corr], fun e he x hx => ?_, fun e he x hx => ?_⟩
    · obtain ⟨w, w1, w2⟩ := f7 e he
      rw [hrad, hx] at w1
      simp only [ocbLib, ocbScale, entry, Except.ok.injEq] at w1
      rw [w2, ← w1, Ocb.Scale.normalEvar, mul_div_assoc]
    · obtain ⟨w, w1, w2⟩ := f8 e he
      rw [hrad, hx] at w1
      simp only [ocbLib, ocbScale, entry, Except.ok.injEq] at w1
      rw [w2, ← w1, Ocb.Scale.normalCurlEvar]
  · exact .inr hbl

/-- The hypotheses of `C213_cells` and `C213_scaled` hold for the set of C210 with one record at its time: its second
latitude, 71, is placed by the circle at the local time 6. -/
example : ∃ out, addX Ocb.Pysat.exOcbLib (dualCycler [0]) 0 60 (exSet ["t".toList, "lat".toList, "z".toList]) exNames
    (.scalar (.fin 0)) [] [] 1 "ocb".toList = .ok (some out) ∧
    (∃ L M, (out (under "lat".toList "ocb".toList)).val [0, 1, 0] = .fin L ∧ (out (under "lt".toList "ocb".toList)).val [0, 1, 0] = .fin M ∧
      Placed exRec 71 6 L M 0) ∧ (out (under "e".toList "ocb".toList)).val [0, 1, 0] = .fin 10 := by
  set ds := ["t".toList, "lat".toList, "z".toList] with hds
  have hds' : ds = ["t".toList, "z".toList, "lat".toList] ∨ ds = ["t".toList, "lat".toList, "z".toList] := .inr hds
  have hb : IsBoundary (dualCycler [0]) (fun _ => True) := .dual [0] (by simp)
  obtain ⟨hN, hord, hch, hin, hus0, fe1, fe2⟩ := exFacts ds hds
  obtain ⟨a1, a2, a3, a4, a5⟩ := exArr ds
  have hp := exPlan_eq ds
  have he : ∀ e ∈ exNames.evars ++ exNames.curls, e ∈ (exSet ds).vars ∧ (exSet ds).index ∈ ((exSet ds).arr e).dims ∧
      (["t".toList, "lat".toList] ++ ["z".toList]).filter (· ∈ ((exSet ds).arr e).dims) <+: ["t".toList, "lat".toList] ++ ["z".toList] := by
    intro e hes
    change e ∈ ["e".toList] at hes
    rw [List.mem_singleton] at hes
    subst hes
    refine ⟨?_, fe1, fe2⟩
    change "e".toList ∈ ["lt".toList, "e".toList]
    decide +kernel
  obtain ⟨out, ho⟩ := C211_succeeds Ocb.Pysat.exOcbLib Ocb.Pysat.exOcbLib_total hb 0
    (by decide) 60 (by decide) (exSet ds) exNames (.scalar (.fin 0)) [] [] 1 (.inl rfl) "ocb".toList exPlan _ _ hp rfl (exSound ds hds')
    (exLayout ds hds' _) hord (by decide +kernel) he (by simp [exSet]) (fun _ τ _ _ _ _ => hch τ) hN (by simp [dualCycler]) (by
      rintro ⟨-, ⟨hx, -⟩ | ⟨-, hx⟩⟩
      · omega
      · have := hx 0 0 0 ⟨le_rfl, rfl⟩ ⟨le_rfl, .inl rfl⟩ hus0
        omega)
  have n1 : ¬ "lat".toList = "t".toList := by decide +kernel
  have n3 : ¬ "z".toList = "lat".toList := by decide +kernel
  have n6 : ¬ "t".toList = "lat".toList := by decide +kernel
  let σ : Name → ℕ := fun d => if d = "lat".toList then 1 else 0
  have s1 : σ "t".toList = 0 := if_neg n6
  have s2 : σ "lat".toList = 1 := if_pos rfl
  have s3 : σ "z".toList = 0 := if_neg n3
  have hσ := hin σ s1 (by omega) (by omega)
  have hlat : cell (exSet ds) exNames.mlat σ = .fin 71 := by
    change cell (exSet ds) "lat".toList σ = .fin 71
    rw [cell, a2]
    simp only [List.map_cons, List.map_nil, s2]
    norm_num
  have hmlt : cell (exSet ds) exNames.mlt σ = .fin 6 := by
    change cell (exSet ds) "lt".toList σ = .fin 6
    rw [cell, a4]
  have hhem : InHem ((1 : ℤ) : ℝ) 71 := by simp [InHem]
  have hix : (["t".toList, "lat".toList] ++ ["z".toList]).map σ = [0, 1, 0] := by
    change [σ "t".toList, σ "lat".toList, σ "z".toList] = [0, 1, 0]
    rw [s1, s2, s3]
  have hcell := C213_cells _ 74 _ hb 0 (by decide) 60 (by decide) (exSet ds) exNames (.scalar (.fin 0)) [] [] 1
    (.inl rfl) Ocb.Pysat.exRecords "ocb".toList exPlan _ _ hp (exSound ds hds') (exLayout ds hds' _) (by decide +kernel) out ho σ hσ 71 6
    hlat hmlt hhem
  have hsc := C213_scaled _ 74 _ hb 0 (by decide) 60 (by decide) (exSet ds) exNames (.scalar (.fin 0)) [] [] 1
    (.inl rfl) Ocb.Pysat.exRecords "ocb".toList exPlan _ _ hp (exSound ds hds') (exLayout ds hds' _) hord (by decide +kernel) he out ho σ hσ 71 6
    hlat hmlt hhem
  rw [hix] at hcell hsc
  refine ⟨out, ho, ?_⟩
  rcases hcell with ⟨r, B, L, M, rc, -, -, hB, -, c1, c2, c3, hpl, -⟩ | ⟨-, hc⟩
  · obtain rfl : exRec = B := by simpa using hB
    obtain rfl : rc = 0 := hpl.corr
    refine ⟨⟨L, M, c1, c2, hpl⟩, ?_⟩
    rcases hsc with ⟨r', B', -, -, hB', -, hev, -⟩ | hnan
    · obtain rfl : exRec = B' := by simpa using hB'
      have hx : cell (exSet ds) "e".toList σ = .fin 10 := by
        rw [cell, a5, hds]
        simp only [List.map_cons, List.map_nil, s1, s2, s3]
        norm_num
      have := hev "e".toList (by change "e".toList ∈ ["e".toList]; decide +kernel) 10 hx
      have e : (10 : ℝ) * ((exRec.r + exRec.rf 6) / (90 - |(74 : ℝ)|)) = 10 := by
        rw [abs_of_pos (by norm_num)]
        norm_num [exRec]
      rw [e] at this
      exact this
    · rw [hnan] at c1
      simp at c1
  · exfalso
    refine hc (by change [(0 : ℤ)].Pairwise (· ≤ ·); simp) hN (hch σ) 0 ⟨le_rfl, .inl rfl⟩ ⟨0, 0, ?_, ⟨le_rfl, rfl⟩, by simp⟩
    change [(0 : ℤ)][σ "t".toList]? = some 0
    rw [s1]
    rfl

end Ocb.XData
