import Verif.Model.PysatGeoDual
import Verif.Props.GeoDual
import Verif.Props.PysatDual
import Verif.Props.PysatGeo

/-! # C220: where the columns of a dual boundary place the rows of a table with geographic coordinates -/

set_option autoImplicit false

namespace Ocb.Pysat

open Ocb.Files (Name)
open Ocb.Cycle Ocb.Coord
open Ocb.Time (Tod)
open Ocb.Scale (F Aacgm utHours selectPair)
open Ocb.Geo (MagOf NamesMag NamesGeocentric)

/-! ## Specification -/

/-- What the new cells of a row hold for the magnetic location `q` and the pair of boundaries: if the meridian of the
location crosses both boundaries in order, the coordinates that stand for it. -/
def DualHolds (n : Names) (b : Name) (o : Out) (i : ℕ) (D : DualObj) (O E : Rec) (q : F × F) : Prop :=
  ∀ a m ρo ρe, q = (some a, some m) → GoodPt O E a m ρo ρe → ∃ L M rc, Cell o (under n.mlat b) i (.fin L) ∧
    Cell o (under n.mlt b) i (.fin M) ∧ Cell o (under "r_corr".toList b) i (.fin rc) ∧ Between D O ρo ρe a m L M rc

/-! ## Lemmas -/

theorem geoDualNorm_mag (A : Aacgm) {P : PairRun} {times : ℤ → Tod} {coords : Name} (hc : ¬ NamesMag coords) {r : ℤ} {D : DualObj}
    {O E : Rec} (hA : P.At r D O E) (hs : ∀ x y, (P.store r x y).WF D) (lat lt hgt : V) :
    ∃ q, MagOf A (decide (NamesGeocentric coords)) (times r) (entry lat, entry lt, entry hgt) q ∧
      (∃ v, geoDualNorm A P times coords r lat lt hgt = .ok v) ∧
      ∀ a m ρo ρe, q = (some a, some m) → GoodPt O E a m ρo ρe → ∃ L M rc,
        geoDualNorm A P times coords r lat lt hgt = .ok (.fin L, .fin M, .fin rc) ∧ Between D O ρo ρe a m L M rc := by
  obtain ⟨qs, out, s', h1, h2, h3⟩ := Geo.C167_normal hA.2 A (times r) (P.store r lat lt) (hs lat lt) (P.fresh r lat lt) coords hc
    [(entry lat, entry lt, entry hgt)] false
  cases h1 with
  | cons h4 h5 =>
    cases h5
    rename_i q
    let P' : PairRun := ⟨P.obj, fun _ _ _ => P.store r lat lt, fun _ _ _ => P.fresh r lat lt⟩
    have hA' : P'.At r D O E := hA
    have e : geoDualNorm A P times coords r lat lt hgt = dualNorm P' r (ofEntry q.1) (ofEntry q.2) hgt := by
      simp only [geoDualNorm, dualNorm, hA.select, h3, entry_ofEntry, P', h2, bind, Except.bind]
      cases out <;> rfl
    refine ⟨q, h4, ?_, ?_⟩
    · rw [e]
      exact dualNorm_total hA' (fun _ _ => hs lat lt) _ _ _
    · rintro a m ρo ρe rfl hg
      rw [e]
      exact dualNorm_between hA' (fun _ _ => hs lat lt) hg hgt

/-! ## Theorems -/

variable {c : Cycler} {good : ℤ → Prop}

/-- C220 (partial): a row with geographic coordinates either is blank or is placed by the magnetic location that the
library gives for its latitude, local time and height at the time of the pair it is matched with, relative to the boundaries
of that pair.  Missing: the location at the time of the row, see `C220_refuted`. -/
theorem C220_record_partial (A : Aacgm) (P : PairRun) (times : ℤ → Tod) (tod : ℤ → Tod)
    (hτ : ∀ r tr, At c.times r tr → times r = tod tr) (vect : ℤ → ℕ → V → V → Init → Except PyErr (Name → V))
    (hb : IsBoundary c good) (rec : ℤ) (h0 : -1 ≤ rec) (tol : ℤ) (htol : 0 ≤ tol) (t : Table)
    (n : Names) (height : Height) (loc vec : Name) (hloc : ¬ NamesMag loc) (h : ℤ) (hP : PairsOk c P h) (b : Name)
    (p : Plan) (o : Out) (hp : plan t.vars n = .ok p) (hn : (written n p b).Nodup)
    (ho : addOcb (geoDualLib A P times loc vect) c rec tol t n height loc vec h b = .ok (some o)) (i : ℕ) (lat lt : ℝ)
    (hlat : t.cell n.mlat i = .fin lat) (hlt : t.cell n.mlt i = .fin lt) :
    (∃ r tr D O E hgt q, Cand good rec r ∧ At c.times r tr ∧ |t.time i - tr| ≤ tol ∧ P.At r D O E ∧ height.get i = .ok hgt ∧
        MagOf A (decide (NamesGeocentric loc)) (tod tr) (some lat, some lt, entry hgt) q ∧ DualHolds n b o i D O E q ∧
        ((∀ a b, a ≤ b → b < t.rows → t.time a ≤ t.time b) → StrictOn c.times (Cand good rec) →
          ∀ k, Cand good rec k → RowNearer c t i r k)) ∨
      (Blank o i ∧
        ((∀ a b, a ≤ b → b < t.rows → t.time a ≤ t.time b) → NondecOn c.times (Cand good rec) →
          i ∈ usedRows t n.mlat p.need h → ∀ k, Cand good rec k → ¬ RowClose c t tol i k)) := by
  rcases C94_rows (geoDualLib A P times loc vect) hb rec h0 tol htol t n height loc vec h b p o hp hn ho i with
    ⟨r, -, hc, hcl, ⟨hgt, v, f1, f2, f3, f4, f5, -⟩, hne⟩ | hbl
  · left
    obtain ⟨tr, htr, hclose⟩ := hcl
    obtain ⟨D, O, E, g1, g4⟩ := hP.2 r tr htr
    obtain ⟨q, q1, -, q2⟩ := geoDualNorm_mag A (times := times) hloc g1 g4 (.fin lat) (.fin lt) hgt
    rw [hτ r tr htr] at q1
    have f2 : geoDualNorm A P times loc r (t.cell n.mlat i) (t.cell n.mlt i) hgt = .ok v := f2
    rw [hlat, hlt] at f2
    refine ⟨r, tr, D, O, E, hgt, q, hc, htr, hclose, g1, f1, q1, fun a m ρo ρe hq hg => ?_, hne⟩
    obtain ⟨L, M, rc, k1, k2⟩ := q2 a m ρo ρe hq hg
    rw [k1, Except.ok.injEq] at f2
    subst f2
    exact ⟨L, M, rc, f3, f4, f5, k2⟩
  · exact .inr hbl

/-- C220 (partial): with tolerance zero the location of a row that is not blank is the one that the library gives at the
row's own time. -/
theorem C220_exact_partial (A : Aacgm) (P : PairRun) (times : ℤ → Tod) (tod : ℤ → Tod)
    (hτ : ∀ r tr, At c.times r tr → times r = tod tr) (vect : ℤ → ℕ → V → V → Init → Except PyErr (Name → V))
    (hb : IsBoundary c good) (rec : ℤ) (h0 : -1 ≤ rec) (t : Table)
    (n : Names) (height : Height) (loc vec : Name) (hloc : ¬ NamesMag loc) (h : ℤ) (hP : PairsOk c P h) (b : Name)
    (p : Plan) (o : Out) (hp : plan t.vars n = .ok p) (hn : (written n p b).Nodup)
    (ho : addOcb (geoDualLib A P times loc vect) c rec 0 t n height loc vec h b = .ok (some o)) (i : ℕ) (lat lt : ℝ)
    (hlat : t.cell n.mlat i = .fin lat) (hlt : t.cell n.mlt i = .fin lt) :
    (∃ r D O E hgt q, Cand good rec r ∧ At c.times r (t.time i) ∧ P.At r D O E ∧ height.get i = .ok hgt ∧
        MagOf A (decide (NamesGeocentric loc)) (tod (t.time i)) (some lat, some lt, entry hgt) q ∧ DualHolds n b o i D O E q) ∨
      Blank o i := by
  rcases C220_record_partial A P times tod hτ vect hb rec h0 0 le_rfl t n height loc vec hloc h hP b p o hp hn ho i lat lt
    hlat hlt with ⟨r, tr, D, O, E, hgt, q, h1, h2, h3, h4, h5, h6, h7, -⟩ | ⟨hbl, -⟩
  · left
    obtain rfl : tr = t.time i := by
      have := abs_nonpos_iff.1 h3
      omega
    exact ⟨r, D, O, E, hgt, q, h1, h2, h4, h5, h6, h7⟩
  · exact .inr hbl

/-! ## An instance and a counterexample -/

noncomputable def exGeoDualLib (s : ℤ) : Lib :=
  geoDualLib exGeoA exPairs (fun _ => daySec s) "geodetic".toList fun _ _ _ _ _ => .ok fun _ => .fin 2

theorem exGeoPairs (s : ℤ) : PairsOk (dualCycler [s]) exPairs 1 := by
  refine ⟨by simp [exPairs, exDual], fun r tr h => ?_⟩
  obtain ⟨rfl, -⟩ := exGeoAt h
  exact ⟨exDual, exRec, exEab, exAt, fun _ _ => exStore_wf⟩

theorem exGeoTimes (s : ℤ) : ∀ r tr, At (dualCycler [s]).times r tr → (fun _ : ℤ => daySec s) r = daySec tr := by
  intro r tr h
  obtain ⟨-, rfl⟩ := exGeoAt h
  rfl

/-- The table of C215 with one pair at `s` seconds after midnight, within the tolerance of the first row -/
theorem exGeoDual_row (s : ℤ) (tol : ℤ) (hs : 0 ≤ s) (hst : s ≤ tol) :
    ∃ o, addOcb (exGeoDualLib s) (dualCycler [s]) 0 tol exCapTable exCapNames (.column fun _ => .fin 0) "geodetic".toList [] 1 (bname .dual) =
      .ok (some o) ∧ ∃ q, MagOf exGeoA false (daySec s) (some 80, some 6, some 0) q ∧
        DualHolds exCapNames (bname .dual) o 0 exDual exRec exEab q := by
  have hb : IsBoundary (dualCycler [s]) (fun _ => True) := .dual [s] (by simp)
  have hp : plan exCapTable.vars exCapNames = .ok exCapPlan := by decide
  have hn : (written exCapNames exCapPlan (bname .dual)).Nodup := by decide +kernel
  have hT : ∀ a b, a ≤ b → b < exCapTable.rows → exCapTable.time a ≤ exCapTable.time b := by
    intro a b hab _
    simp only [exCapTable]
    omega
  have hN : NondecOn (dualCycler [s]).times (Cand (fun _ => True) 0) := by
    intro a b u v _ _ _ hu hv
    have := exGeoAt hu
    have := exGeoAt hv
    omega
  have hclose : |exCapTable.time 0 - s| ≤ tol := by
    simp only [exCapTable]
    rw [abs_le]
    constructor <;> simp <;> omega
  obtain ⟨o, ho⟩ := rows_succeed (exGeoDualLib s) (fun f x y => ocbScale_total _ f x y) hb 0
    (by decide) tol (by omega) exCapTable exCapNames (fun _ => .fin 0) "geodetic".toList [] 1 .dual exCapPlan hp hn (by decide +kernel)
    (by simp [exCapPlan]) (by simp [exCapPlan]) hT hN (by simp [dualCycler]) (by
      rw [exCapUsed]
      rintro ⟨-, ⟨h, -⟩ | ⟨-, h⟩⟩
      · simp at h
      · have := h 0 s 0 ⟨le_rfl, rfl⟩ ⟨le_rfl, .inl rfl⟩ (by simp [exCapTable])
        omega) (by
      intro i hi r tr htr hgt _
      obtain ⟨rfl, -⟩ := exGeoAt htr
      obtain ⟨q, -, ⟨v, hv⟩, -⟩ := geoDualNorm_mag exGeoA (times := fun _ => daySec s) exGeo_loc exAt (fun _ _ => exStore_wf)
        (exCapTable.cell exCapNames.mlat i) (exCapTable.cell exCapNames.mlt i) hgt
      exact ⟨v, hv, fun v hv => ⟨_, rfl⟩⟩)
  refine ⟨o, ho, ?_⟩
  rcases C220_record_partial exGeoA exPairs _ daySec (exGeoTimes s) _ hb 0 (by decide) tol (by omega) exCapTable exCapNames
    (.column fun _ => .fin 0) "geodetic".toList [] exGeo_loc 1 (exGeoPairs s) (bname .dual) exCapPlan o hp hn ho 0 80 6
    (exCapRow 0).1 (exCapRow 0).2.1 with ⟨r, tr, D, O, E, hgt, q, -, h2, -, h4, h5, h6, h7, -⟩ | ⟨-, hc⟩
  · obtain ⟨-, rfl⟩ := exGeoAt h2
    obtain ⟨rfl, rfl, rfl⟩ := exPair_unique h4
    simp only [Height.get, Except.ok.injEq] at h5
    subst h5
    have hd : decide (NamesGeocentric "geodetic".toList) = false := by decide +kernel
    rw [hd] at h6
    exact ⟨q, h6, h7⟩
  · exact absurd ⟨s, ⟨le_rfl, rfl⟩, hclose⟩ (hc hT hN (by rw [exCapUsed]; simp) 0 ⟨le_rfl, .inl rfl⟩)

/-- The hypotheses of `C220_record_partial` hold, and those of `C220_exact_partial` for `tol = 0`: the first row of the
table, at midnight and local time 6, is at longitude 90 and placed at the magnetic latitude 62.5, between the boundaries. -/
example : ∃ o, addOcb (exGeoDualLib 0) (dualCycler [0]) 0 0 exCapTable exCapNames (.column fun _ => .fin 0) "geodetic".toList [] 1 (bname .dual) =
    .ok (some o) ∧ ∃ L M rc, Cell o (under "lat".toList (bname .dual)) 0 (.fin L) ∧ Between exDual exRec 21 31 (125 / 2) 6 L M rc := by
  obtain ⟨o, ho, q, h1, h2⟩ := exGeoDual_row 0 0 le_rfl le_rfl
  have u : utHours (daySec 0) = 0 := by simp [utHours, daySec]
  have e := exGeo_lon (by rw [u]; norm_num) (by rw [u]; norm_num) h1
  have e' : q = (some (125 / 2), some 6) := by
    rw [e, u]
    norm_num
  obtain ⟨L, M, rc, c1, -, -, c4⟩ := h2 _ _ 21 31 e' (exGood _ (by norm_num) (by norm_num))
  exact ⟨o, ho, L, M, rc, c1, c4⟩

/-- C220 refuted: a row at midnight that is matched with a pair one minute later is placed, but not at the magnetic location
that the library gives at the row's own time. -/
theorem C220_refuted :
    ∃ o, addOcb (exGeoDualLib 60) (dualCycler [60]) 0 60 exCapTable exCapNames (.column fun _ => .fin 0) "geodetic".toList [] 1 (bname .dual) =
      .ok (some o) ∧ PairsOk (dualCycler [60]) exPairs 1 ∧ exPairs.At 0 exDual exRec exEab ∧ ¬ Blank o 0 ∧
      ∀ q, MagOf exGeoA false (daySec (exCapTable.time 0)) (some 80, some 6, some 0) q →
        ¬ DualHolds exCapNames (bname .dual) o 0 exDual exRec exEab q := by
  obtain ⟨o, ho, q, h1, h2⟩ := exGeoDual_row 60 60 (by norm_num) le_rfl
  have u : utHours (daySec 60) = 1 / 60 := by simp [utHours, daySec]
  have e := exGeo_lon (by rw [u]; norm_num) (by rw [u]; norm_num) h1
  rw [u] at e
  obtain ⟨L, M, rc, c1, c2, c3, hpl⟩ := h2 _ _ 21 31 e (exGood _ (by norm_num) (by norm_num))
  refine ⟨o, ho, exGeoPairs 60, exAt, ?_, ?_⟩
  · intro hbl
    obtain ⟨col, d1, d2⟩ := c1
    rw [hbl _ _ d1] at d2
    cases d2
  · intro q' h3 h4
    have u0 : utHours (daySec (exCapTable.time 0)) = 0 := by simp [utHours, daySec, exCapTable]
    have e' := exGeo_lon (by rw [u0]; norm_num) (by rw [u0]; norm_num) h3
    rw [u0] at e'
    obtain ⟨L', M', rc', c1', c2', c3', hpl'⟩ := h4 _ _ 21 31 e' (exGood _ (by norm_num) (by norm_num))
    obtain rfl := Fl.fin.inj (cell_unique c1 c1')
    obtain rfl := Fl.fin.inj (cell_unique c2 c2')
    obtain rfl := Fl.fin.inj (cell_unique c3 c3')
    have hwf : (⟨fun _ => [some 6], none, none, none, none⟩ : DStore).WF exDual :=
      ⟨⟨by simp [DStore.ocb], by simp [DStore.ocb]⟩, ⟨by simp [DStore.eab], by simp [DStore.eab]⟩,
        ⟨by simp [DStore.ocb], by simp [DStore.ocb, Store.slot, Store.slotMlt]⟩,
        ⟨by simp [DStore.eab], by simp [DStore.eab, Store.slot, Store.slotMlt]⟩⟩
    obtain ⟨m1, t1, b1, -⟩ := hpl.back _ 0 false hwf rfl
    obtain ⟨m2, t2, b2, -⟩ := hpl'.back _ 0 false hwf rfl
    rw [b1] at b2
    simp only [Except.ok.injEq, Prod.mk.injEq, List.cons.injEq, Option.some.injEq, and_true] at b2
    have := b2.1.1
    norm_num at this

theorem exGeoDualLib_total (s : ℤ) : Total (exGeoDualLib s) := by
  refine ⟨fun r a m hgt => ?_, fun _ _ _ _ _ => ⟨_, rfl⟩, fun f x y => ocbScale_total _ f x y⟩
  change ∃ v, geoDualNorm exGeoA exPairs (fun _ => daySec s) "geodetic".toList r a m hgt = .ok v
  by_cases h0 : r = 0
  · subst h0
    obtain ⟨q, -, h, -⟩ := geoDualNorm_mag exGeoA (times := fun _ => daySec s) exGeo_loc exAt (fun _ _ => exStore_wf) a m hgt
    exact h
  · have hr : exPairs.obj.records = 1 := rfl
    rcases lt_or_gt_of_ne h0 with h | h
    · refine ⟨(.nan, .nan, .nan), ?_⟩
      simp only [geoDualNorm, selectPair, if_pos h, bind, Except.bind, Geo.dualNormalGeo, if_pos (Or.inl h)]
      rfl
    · have h1 : exPairs.obj.records ≤ r := by omega
      refine ⟨(.nan, .nan, .nan), ?_⟩
      simp only [geoDualNorm, selectPair, if_neg (not_lt.2 h.le), if_pos h1, bind, Except.bind, Geo.dualNormalGeo]
      rw [if_pos (.inr h1)]
      rfl

end Ocb.Pysat

namespace Ocb.XData

open Ocb.Files (Name)
open Ocb.Grid
open Ocb.Cycle
open Ocb.Coord
open Ocb.Time (Tod)
open Ocb.Scale (F Aacgm)
open Ocb.Geo (MagOf NamesMag NamesGeocentric)
open Ocb.Pysat (V Lib Names Plan plan under PairRun PairsOk Between geoDualLib geoDualNorm geoDualNorm_mag entry exPairs exPair_unique
  exGeoDualLib exGeoDualLib_total exGeoPairs exGeoTimes exGeoA exGeo_loc exGeoAt exGeo_lon daySec)

variable {c : Cycler} {good : ℤ → Prop}

/-- C220 (partial): the cells of a set with geographic coordinates, in the layouts of C210, are placed in the same way, at
the location that the library gives at the time of the pair. -/
theorem C220_cells_partial (A : Aacgm) (P : PairRun) (times : ℤ → Tod) (tod : ℤ → Tod)
    (hτ : ∀ r tr, At c.times r tr → times r = tod tr)
    (vect : ℤ → ℕ → V → V → Ocb.Pysat.Init → Except PyErr (Name → V)) (hb : IsBoundary c good) (rec : ℤ) (h0 : -1 ≤ rec) (tol : ℤ)
    (htol : 0 ≤ tol) (S : XSet) (n : Names) (hgt : Height) (lc vc : Name) (hloc : ¬ NamesMag lc) (h : ℤ) (hh : h = 1 ∨ h = -1)
    (hP : PairsOk c P h) (b : Name) (p : Plan) (base extra : List Name)
    (hp : plan (S.vars ++ S.coords) n = .ok p) (hs : Sound S p.need)
    (hl : Layout S n.mlat n.mlt p.need hgt base extra)
    (hk : (Ocb.Pysat.written n p b).Nodup) (out : Name → Arr V)
    (ho : addX (geoDualLib A P times lc vect) c rec tol S n hgt lc vc h b = .ok (some out)) (σ : Name → ℕ)
    (hσ : ∀ d ∈ base ++ extra, σ d < S.len d) (lat lt : ℝ) (hlat : cell S n.mlat σ = .fin lat) (hlt : cell S n.mlt σ = .fin lt) :
    (∃ r ti tr D O E q, Cand good rec r ∧ S.time[σ S.index]? = some ti ∧ At c.times r tr ∧ |ti - tr| ≤ tol ∧ P.At r D O E ∧
      MagOf A (decide (NamesGeocentric lc)) (tod tr) (some lat, some lt, entry (heightAt S hgt σ)) q ∧
      (∀ a m ρo ρe, q = (some a, some m) → GoodPt O E a m ρo ρe → ∃ L M rc,
        (out (under n.mlat b)).val ((base ++ extra).map σ) = .fin L ∧
        (out (under n.mlt b)).val ((base ++ extra).map σ) = .fin M ∧
        (out (under "r_corr".toList b)).val ((base ++ extra).map σ) = .fin rc ∧
        Between D O ρo ρe a m L M rc) ∧
      (S.time.Pairwise (· ≤ ·) → StrictOn c.times (Cand good rec) →
        ∀ k, Cand good rec k → TimeNearer c S (σ S.index) r k)) ∨
    ((∀ k, (out k).val ((base ++ extra).map σ) = .nan) ∧
      (S.time.Pairwise (· ≤ ·) → NondecOn c.times (Cand good rec) → Chosen S n.mlat p.need h σ →
        ∀ k, Cand good rec k → ¬ TimeClose c S tol (σ S.index) k)) := by
  rcases (C210_cells_partial (geoDualLib A P times lc vect) hb rec h0 tol htol S n hgt lc vc h hh b p base extra hp hs hl hk out ho).2 σ hσ with
    ⟨r, v, -, hc, hcl, f2, f3, f4, f5, hne⟩ | hbl
  · left
    obtain ⟨ti, tr, hti, htr, hclose⟩ := hcl
    obtain ⟨D, O, E, g1, g4⟩ := hP.2 r tr htr
    obtain ⟨q, q1, -, q2⟩ := geoDualNorm_mag A (times := times) hloc g1 g4 (.fin lat) (.fin lt) (heightAt S hgt σ)
    rw [hτ r tr htr] at q1
    have f2 : geoDualNorm A P times lc r (cell S n.mlat σ) (cell S n.mlt σ) (heightAt S hgt σ) = .ok v := f2
    rw [hlat, hlt] at f2
    refine ⟨r, ti, tr, D, O, E, q, hc, hti, htr, hclose, g1, q1, fun a m ρo ρe hq hg => ?_, hne⟩
    obtain ⟨L, M, rc, k1, k2⟩ := q2 a m ρo ρe hq hg
    rw [k1, Except.ok.injEq] at f2
    subst f2
    exact ⟨L, M, rc, f3, f4, f5, k2⟩
  · exact .inr hbl

/-- The hypotheses of `C220_cells_partial` hold for the set of C210 with one pair at its time: its second latitude, at local
time 6 and so at longitude 90, is placed at the magnetic latitude 62.5, between the boundaries. -/
example : ∃ out, addX (exGeoDualLib 0) (dualCycler [0]) 0 60 (exSet ["t".toList, "lat".toList, "z".toList]) exNames
    (.scalar (.fin 0)) "geodetic".toList [] 1 "dualb".toList = .ok (some out) ∧
    ∃ L M rc, (out (under "lat".toList "dualb".toList)).val [0, 1, 0] = .fin L ∧
      (out (under "lt".toList "dualb".toList)).val [0, 1, 0] = .fin M ∧ Between exDual exRec 21 31 (125 / 2) 6 L M rc := by
  set ds := ["t".toList, "lat".toList, "z".toList] with hds
  have hds' : ds = ["t".toList, "z".toList, "lat".toList] ∨ ds = ["t".toList, "lat".toList, "z".toList] := .inr hds
  have hb : IsBoundary (dualCycler [0]) (fun _ => True) := .dual [0] (by simp)
  obtain ⟨hN, hord, hch, hin, hus0, fe1, fe2⟩ := exFacts ds hds
  obtain ⟨a1, a2, a3, a4, a5⟩ := exArr ds
  have hp := exPlan_eq ds
  have he : ∀ e ∈ exNames.evars ++ exNames.curls, e ∈ (exSet ds).vars ∧ (exSet ds).index ∈ ((exSet ds).arr e).dims ∧
      (["t".toList, "lat".toList] ++ ["z".toList]).filter (· ∈ ((exSet ds).arr e).dims) <+: ["t".toList, "lat".toList] ++ ["z".toList] := by
    intro e hes
    change e ∈ ["e".toList] at hes
    rw [List.mem_singleton] at hes
    subst hes
    refine ⟨?_, fe1, fe2⟩
    change "e".toList ∈ ["lt".toList, "e".toList]
    decide +kernel
  obtain ⟨out, ho⟩ := C211_succeeds (exGeoDualLib 0) (exGeoDualLib_total 0) hb 0
    (by decide) 60 (by decide) (exSet ds) exNames (.scalar (.fin 0)) "geodetic".toList [] 1 (.inl rfl) "dualb".toList exPlan _ _ hp rfl
    (exSound ds hds') (exLayout ds hds' _) hord (by decide +kernel) he (by simp [exSet]) (fun _ τ _ _ _ _ => hch τ) hN
    (by simp [dualCycler]) (by
      rintro ⟨-, ⟨hx, -⟩ | ⟨-, hx⟩⟩
      · omega
      · have := hx 0 0 0 ⟨le_rfl, rfl⟩ ⟨le_rfl, .inl rfl⟩ hus0
        omega)
  have n3 : ¬ "z".toList = "lat".toList := by decide +kernel
  have n6 : ¬ "t".toList = "lat".toList := by decide +kernel
  let σ : Name → ℕ := fun d => if d = "lat".toList then 1 else 0
  have s1 : σ "t".toList = 0 := if_neg n6
  have s2 : σ "lat".toList = 1 := if_pos rfl
  have s3 : σ "z".toList = 0 := if_neg n3
  have hσ := hin σ s1 (by omega) (by omega)
  have hlat : cell (exSet ds) exNames.mlat σ = .fin 71 := by
    change cell (exSet ds) "lat".toList σ = .fin 71
    rw [cell, a2]
    simp only [List.map_cons, List.map_nil, s2]
    norm_num
  have hmlt : cell (exSet ds) exNames.mlt σ = .fin 6 := by
    change cell (exSet ds) "lt".toList σ = .fin 6
    rw [cell, a4]
  have hix : (["t".toList, "lat".toList] ++ ["z".toList]).map σ = [0, 1, 0] := by
    change [σ "t".toList, σ "lat".toList, σ "z".toList] = [0, 1, 0]
    rw [s1, s2, s3]
  have hcell := C220_cells_partial exGeoA exPairs _ daySec (exGeoTimes 0) _ hb 0 (by decide) 60 (by decide) (exSet ds) exNames
    (.scalar (.fin 0)) "geodetic".toList [] exGeo_loc 1 (.inl rfl) (exGeoPairs 0) "dualb".toList exPlan _ _ hp (exSound ds hds')
    (exLayout ds hds' _) (by decide +kernel) out ho σ hσ 71 6 hlat hmlt
  rw [hix] at hcell
  refine ⟨out, ho, ?_⟩
  rcases hcell with ⟨r, ti, tr, D, O, E, q, -, -, htr, -, hO, hq, hall, -⟩ | ⟨-, hc⟩
  · obtain ⟨-, rfl⟩ := exGeoAt htr
    obtain ⟨rfl, rfl, rfl⟩ := exPair_unique hO
    have u : Ocb.Scale.utHours (daySec 0) = 0 := by simp [Ocb.Scale.utHours, daySec]
    have e := exGeo_lon (by rw [u]; norm_num) (by rw [u]; norm_num) hq
    have e' : q = (some (125 / 2), some 6) := by
      rw [e, u]
      norm_num
    obtain ⟨L, M, rc, c1, c2, -, c4⟩ := hall _ _ 21 31 e' (exGood _ (by norm_num) (by norm_num))
    exact ⟨L, M, rc, c1, c2, c4⟩
  · exfalso
    refine hc (by change [(0 : ℤ)].Pairwise (· ≤ ·); simp) hN (hch σ) 0 ⟨le_rfl, .inl rfl⟩ ⟨0, 0, ?_, ⟨le_rfl, rfl⟩, by simp⟩
    change [(0 : ℤ)][σ "t".toList]? = some 0
    rw [s1]
    rfl

end Ocb.XData
