import Verif.Model.PysatGeo
import Verif.Props.Geo
import Verif.Props.PysatOcb

/-! # C219: where the new columns place the rows of a table with geographic coordinates -/

set_option autoImplicit false

namespace Ocb.Pysat

open Ocb.Files Ocb.Cycle Ocb.Coord
open Ocb.Time (Tod)
open Ocb.Scale (F Aacgm)
open Ocb.Geo (MagOf NamesMag NamesGeocentric)

/-! ## Specification -/

/-- The records at the times of the boundary object, as in `Records`, each with the time of day of its own time. -/
def GeoRecords (c : Cycler) (recs : ℤ → Option (Rec × Tod)) (tod : ℤ → Tod) (h : ℤ) (blat : ℝ) : Prop :=
  ∀ r tr, At c.times r tr → ∃ B, recs r = some (B, tod tr) ∧ B.Valid ∧ B.hem = h ∧ B.blat = blat ∧ ∀ m, 0 < B.r + B.rf m

/-- What the new cells of a row hold for the magnetic location `q` and the circle `B`: the coordinates that stand for the
location and the variables scaled there, or no latitude and no local time for a location outside the hemisphere. -/
def Holds (t : Table) (n : Names) (p : Plan) (b : Name) (o : Out) (i : ℕ) (B : Rec) (q : F × F) : Prop :=
  (∃ a m L M rc, q = (some a, some m) ∧ InHem B.hem a ∧
    Cell o (under n.mlat b) i (.fin L) ∧ Cell o (under n.mlt b) i (.fin M) ∧
    Cell o (under "r_corr".toList b) i (.fin rc) ∧ Placed B a m L M rc ∧
    (∀ e ∈ p.evars, ∀ x, t.cell e i = .fin x → Cell o (under e b) i (.fin (x * ((B.r + B.rf m) / (90 - |B.blat|))))) ∧
    ∀ e ∈ p.curls, ∀ x, t.cell e i = .fin x → Cell o (under e b) i (.fin (x * ((B.r + B.rf m) / (90 - |B.blat|)) ^ 2))) ∨
  ((∀ a m, q = (some a, some m) → ¬ InHem B.hem a) ∧
    Cell o (under n.mlat b) i .nan ∧ Cell o (under n.mlt b) i .nan)

/-! ## Lemmas -/

theorem entry_ofEntry (x : Option ℝ) : entry (ofEntry x) = x := by cases x <;> rfl

theorem geoNorm_mag (A : Aacgm) {recs : ℤ → Option (Rec × Tod)} {coords : Name} (hc : ¬ NamesMag coords) {r : ℤ} {B : Rec} {τ : Tod}
    (hr : recs r = some (B, τ)) (hB : B.Valid) (lat lt hgt : V) :
    ∃ q, MagOf A (decide (NamesGeocentric coords)) τ (entry lat, entry lt, entry hgt) q ∧
      geoNorm A recs coords r lat lt hgt = ocbNorm (fun _ => some B) r (ofEntry q.1) (ofEntry q.2) hgt := by
  obtain ⟨qs, out, lats, h1, h2, h3⟩ := Geo.C166_normal A B hB τ coords hc [(entry lat, entry lt, entry hgt)]
  cases h1 with
  | cons h4 h5 =>
    cases h5
    rename_i q
    refine ⟨q, h4, ?_⟩
    simp only [geoNorm, hr, h3, ocbNorm, entry_ofEntry, h2, bind, Except.bind]
    cases out <;> rfl

theorem ocbNorm_out {B : Rec} (hB : B.Valid) (hp : ∀ m, 0 < B.r + B.rf m) (r : ℤ) (q : F × F) (hgt : V) :
    (∃ a m L M rc, q = (some a, some m) ∧ InHem B.hem a ∧
      ocbNorm (fun _ => some B) r (ofEntry q.1) (ofEntry q.2) hgt = .ok (.fin L, .fin M, .fin rc) ∧ Placed B a m L M rc) ∨
    ((∀ a m, q = (some a, some m) → ¬ InHem B.hem a) ∧
      ∃ v, ocbNorm (fun _ => some B) r (ofEntry q.1) (ofEntry q.2) hgt = .ok (.nan, .nan, v)) := by
  obtain ⟨a, m⟩ := q
  obtain ⟨out, lats, h1, h2⟩ := C27_normal_entries B hB [(a, m)]
  cases h2 with
  | cons h3 h4 =>
    rename_i o os
    rcases h3 with ⟨a', m', e, hin, -⟩ | ⟨hno, e1, e2⟩
    · left
      obtain ⟨L, M, rc, k1, k2⟩ := ocbNorm_placed (recs := fun _ => some B) (r := r) rfl hB hin (hp m') hgt
      simp only [Prod.mk.injEq] at e
      obtain ⟨rfl, rfl⟩ := e
      exact ⟨a', m', L, M, rc, rfl, hin, k1, k2⟩
    · right
      refine ⟨hno, ofEntry o.2.2, ?_⟩
      simp only [ocbNorm, entry_ofEntry, h1, bind, Except.bind, e1, e2]
      rfl

/-! ## Theorems -/

variable {c : Cycler} {good : ℤ → Prop}

/-- C219 (partial): a row with geographic coordinates either is blank or is placed and scaled by the magnetic location that
the library gives for its latitude, local time and height at the time of the record it is matched with, relative to the
circle of that record.  Missing: the location at the time of the row, see `C219_refuted`. -/
theorem C219_record_partial (A : Aacgm) (recs : ℤ → Option (Rec × Tod)) (tod : ℤ → Tod) (blat : ℝ)
    (vect : ℤ → ℕ → V → V → Init → Except PyErr (Name → V))
    (hb : IsBoundary c good) (rec : ℤ) (h0 : -1 ≤ rec) (tol : ℤ) (htol : 0 ≤ tol) (t : Table)
    (n : Names) (height : Height) (loc vec : Name) (hloc : ¬ NamesMag loc) (h : ℤ) (hrec : GeoRecords c recs tod h blat) (b : Name)
    (p : Plan) (o : Out) (hp : plan t.vars n = .ok p) (hn : (written n p b).Nodup)
    (ho : addOcb (geoLib A recs loc blat vect) c rec tol t n height loc vec h b = .ok (some o)) (i : ℕ) (lat lt : ℝ)
    (hlat : t.cell n.mlat i = .fin lat) (hlt : t.cell n.mlt i = .fin lt) :
    (∃ r tr B hgt q, Cand good rec r ∧ At c.times r tr ∧ |t.time i - tr| ≤ tol ∧ recs r = some (B, tod tr) ∧
        height.get i = .ok hgt ∧
        MagOf A (decide (NamesGeocentric loc)) (tod tr) (some lat, some lt, entry hgt) q ∧ Holds t n p b o i B q ∧
        ((∀ a b, a ≤ b → b < t.rows → t.time a ≤ t.time b) → StrictOn c.times (Cand good rec) →
          ∀ k, Cand good rec k → RowNearer c t i r k)) ∨
      (Blank o i ∧
        ((∀ a b, a ≤ b → b < t.rows → t.time a ≤ t.time b) → NondecOn c.times (Cand good rec) →
          i ∈ usedRows t n.mlat p.need h → ∀ k, Cand good rec k → ¬ RowClose c t tol i k)) := by
  rcases C94_rows (geoLib A recs loc blat vect) hb rec h0 tol htol t n height loc vec h b p o hp hn ho i with
    ⟨r, -, hc, hcl, ⟨hgt, v, f1, f2, f3, f4, f5, -, f7, f8⟩, hne⟩ | hbl
  · left
    obtain ⟨tr, htr, hclose⟩ := hcl
    obtain ⟨B, g1, g2, g3, g4, g5⟩ := hrec r tr htr
    obtain ⟨q, q1, q2⟩ := geoNorm_mag A hloc g1 g2 (.fin lat) (.fin lt) hgt
    have f2 : geoNorm A recs loc r (t.cell n.mlat i) (t.cell n.mlt i) hgt = .ok v := f2
    rw [hlat, hlt, q2] at f2
    refine ⟨r, tr, B, hgt, q, hc, htr, hclose, g1, f1, q1, ?_, hne⟩
    rcases ocbNorm_out g2 g5 r q hgt with ⟨a, m, L, M, rc, e, hin, k1, k2⟩ | ⟨hno, w, k1⟩
    · left
      rw [k1, Except.ok.injEq] at f2
      subst f2
      have hrad : (geoLib A recs loc blat vect).radius r (.fin rc) = .fin (B.r + B.rf m) := by
        simp only [geoLib, ocbRadius, g1, Option.map_some, entry, k2.corr]
      refine ⟨a, m, L, M, rc, e, hin, f3, f4, f5, k2, fun e he x hx => ?_, fun e he x hx => ?_⟩
      · obtain ⟨w, w1, w2⟩ := f7 e he
        rw [hrad, hx] at w1
        simp only [geoLib, ocbScale, entry, Except.ok.injEq] at w1
        rw [← w1, Ocb.Scale.normalEvar, mul_div_assoc, ← g4] at w2
        exact w2
      · obtain ⟨w, w1, w2⟩ := f8 e he
        rw [hrad, hx] at w1
        simp only [geoLib, ocbScale, entry, Except.ok.injEq] at w1
        rw [← w1, Ocb.Scale.normalCurlEvar, ← g4] at w2
        exact w2
    · right
      rw [k1, Except.ok.injEq] at f2
      subst f2
      exact ⟨hno, f3, f4⟩
  · exact .inr hbl

/-- C219 (partial): with tolerance zero the location of a row that is not blank is the one that the library gives at the
row's own time. -/
theorem C219_exact_partial (A : Aacgm) (recs : ℤ → Option (Rec × Tod)) (tod : ℤ → Tod) (blat : ℝ)
    (vect : ℤ → ℕ → V → V → Init → Except PyErr (Name → V))
    (hb : IsBoundary c good) (rec : ℤ) (h0 : -1 ≤ rec) (t : Table)
    (n : Names) (height : Height) (loc vec : Name) (hloc : ¬ NamesMag loc) (h : ℤ) (hrec : GeoRecords c recs tod h blat) (b : Name)
    (p : Plan) (o : Out) (hp : plan t.vars n = .ok p) (hn : (written n p b).Nodup)
    (ho : addOcb (geoLib A recs loc blat vect) c rec 0 t n height loc vec h b = .ok (some o)) (i : ℕ) (lat lt : ℝ)
    (hlat : t.cell n.mlat i = .fin lat) (hlt : t.cell n.mlt i = .fin lt) :
    (∃ r B hgt q, Cand good rec r ∧ At c.times r (t.time i) ∧ recs r = some (B, tod (t.time i)) ∧ height.get i = .ok hgt ∧
        MagOf A (decide (NamesGeocentric loc)) (tod (t.time i)) (some lat, some lt, entry hgt) q ∧ Holds t n p b o i B q) ∨
      Blank o i := by
  rcases C219_record_partial A recs tod blat vect hb rec h0 0 le_rfl t n height loc vec hloc h hrec b p o hp hn ho i lat lt
    hlat hlt with ⟨r, tr, B, hgt, q, h1, h2, h3, h4, h5, h6, h7, -⟩ | ⟨hbl, -⟩
  · left
    obtain rfl : tr = t.time i := by
      have := abs_nonpos_iff.1 h3
      omega
    exact ⟨r, B, hgt, q, h1, h2, h4, h5, h6, h7⟩
  · exact .inr hbl

/-! ## An instance and a counterexample -/

/-- The time of day, in whole seconds, of a time in seconds -/
def daySec (s : ℤ) : Tod := ⟨(s % 86400 / 3600).toNat, (s % 3600 / 60).toNat, (s % 60).toNat, 0⟩

/-- A library whose magnetic latitude grows with the longitude -/
noncomputable def exGeoA : Aacgm := ⟨fun _ _ lon _ _ => (lon.map fun x => 60 + x / 36, some 6), fun _ a lon _ _ => (a, lon), fun m _ => m⟩

noncomputable def exGeoLib (s : ℤ) : Lib :=
  geoLib exGeoA (fun _ => some (exRec, daySec s)) "geodetic".toList 74 fun _ _ _ _ _ => .ok fun _ => .fin 2

theorem exGeo_loc : ¬ NamesMag "geodetic".toList := by
  rw [Geo.namesMag_iff]
  decide

theorem exGeoLib_total (s : ℤ) : Total (exGeoLib s) := by
  refine ⟨fun r a m hgt => ?_, fun _ _ _ _ _ => ⟨_, rfl⟩, fun f x y => ?_⟩
  · obtain ⟨q, -, h⟩ := geoNorm_mag exGeoA (recs := fun _ => some (exRec, daySec s)) exGeo_loc (r := r) rfl exRec_valid a m hgt
    change ∃ v, geoNorm exGeoA (fun _ => some (exRec, daySec s)) "geodetic".toList r a m hgt = .ok v
    rw [h]
    rcases ocbNorm_out exRec_valid (fun m => by norm_num [exRec]) r q hgt with ⟨_, _, _, _, _, _, _, k, _⟩ | ⟨_, _, k⟩
    · exact ⟨_, k⟩
    · exact ⟨_, k⟩
  · simp only [exGeoLib, geoLib, ocbScale]
    split
    · exact ⟨_, rfl⟩
    · exact ⟨_, rfl⟩

theorem exGeoAt {s k u : ℤ} (h : At [s] k u) : k = 0 ∧ u = s := by
  obtain ⟨hk, hu⟩ := h
  match hk' : k.toNat, hu with
  | 0, hu => simp at hu; omega
  | m + 1, hu => simp at hu

theorem exGeoRecords (s : ℤ) : GeoRecords (dualCycler [s]) (fun _ => some (exRec, daySec s)) daySec 1 74 := by
  intro r tr htr
  obtain ⟨-, rfl⟩ := exGeoAt htr
  exact ⟨exRec, rfl, exRec_valid, by simp [exRec], rfl, fun m => by norm_num [exRec]⟩

/-- The longitude of a local time less than twelve hours after the time -/
theorem exGeo_lon {geoc : Bool} {τ : Tod} {hgt : F} {q : F × F} {lat lt : ℝ} (h0 : 0 ≤ lt - Ocb.Scale.utHours τ)
    (h1 : lt - Ocb.Scale.utHours τ < 12) (h : MagOf exGeoA geoc τ (some lat, some lt, hgt) q) :
    q = (some (60 + 15 * (lt - Ocb.Scale.utHours τ) / 36), some 6) := by
  obtain ⟨lon, hs, hr, rfl⟩ := h
  rcases hs with ⟨-, hs⟩ | ⟨x, y, rfl, hy, k, hk⟩
  · cases hs
  · simp only [Option.some.injEq] at hy
    subst hy
    obtain ⟨r1, r2⟩ := hr x rfl
    have e : x = 15 * (lt - Ocb.Scale.utHours τ) - 360 * k := by linarith
    have k0 : k = 0 := by
      have a1 : (k : ℝ) < 1 := by linarith
      have a2 : (-1 : ℝ) < k := by linarith
      have a1' : k < 1 := by exact_mod_cast a1
      have a2' : -1 < k := by exact_mod_cast a2
      omega
    rw [k0, Int.cast_zero, mul_zero, sub_zero] at e
    rw [← e]
    rfl

/-- The table of C94 with one record at `s` seconds after midnight, within the tolerance of the first row -/
theorem exGeo_row (s : ℤ) (tol : ℤ) (hs : 0 ≤ s) (hst : s ≤ tol) :
    ∃ o, addOcb (exGeoLib s) (dualCycler [s]) 0 tol exTable exNames (.column fun _ => .fin 0) "geodetic".toList [] 1 (bname .ocb) =
      .ok (some o) ∧ ∃ q, MagOf exGeoA false (daySec s) (some 1, some 1, some 0) q ∧ Holds exTable exNames exPlan (bname .ocb) o 0 exRec q := by
  have hb : IsBoundary (dualCycler [s]) (fun _ => True) := .dual [s] (by simp)
  have hp : plan exTable.vars exNames = .ok exPlan := by decide
  have hn : (written exNames exPlan (bname .ocb)).Nodup := by decide
  have hT : ∀ a b, a ≤ b → b < exTable.rows → exTable.time a ≤ exTable.time b := by
    intro a b hab _
    simp only [exTable]
    omega
  have hN : NondecOn (dualCycler [s]).times (Cand (fun _ => True) 0) := by
    intro a b u v _ _ _ hu hv
    have := exGeoAt hu
    have := exGeoAt hv
    omega
  have hclose : |exTable.time 0 - s| ≤ tol := by
    simp only [exTable]
    rw [abs_le]
    constructor <;> simp <;> omega
  obtain ⟨o, ho⟩ := C94_succeeds (exGeoLib s) (exGeoLib_total s) hb 0
    (by decide) tol (by omega) exTable exNames (fun _ => .fin 0) "geodetic".toList [] 1 .ocb exPlan hp hn (by decide)
    (by unfold Clean; decide) (by decide) hT hN (by simp [dualCycler]) (by
      rw [exUsed]
      rintro ⟨-, ⟨h, -⟩ | ⟨-, h⟩⟩
      · simp at h
      · have := h 0 s 0 ⟨le_rfl, rfl⟩ ⟨le_rfl, .inl rfl⟩ (by simp [exTable])
        omega)
  refine ⟨o, ho, ?_⟩
  rcases C219_record_partial exGeoA _ daySec 74 _ hb 0 (by decide) tol (by omega) exTable exNames (.column fun _ => .fin 0)
    "geodetic".toList [] exGeo_loc 1 (exGeoRecords s) (bname .ocb) exPlan o hp hn ho 0 1 1 rfl rfl with
    ⟨r, tr, B, hgt, q, -, h2, -, h4, h5, h6, h7, -⟩ | ⟨-, hc⟩
  · obtain ⟨-, rfl⟩ := exGeoAt h2
    simp only [Option.some.injEq, Prod.mk.injEq] at h4
    obtain ⟨rfl, -⟩ := h4
    simp only [Height.get, Except.ok.injEq] at h5
    subst h5
    have hd : decide (NamesGeocentric "geodetic".toList) = false := by decide +kernel
    rw [hd] at h6
    exact ⟨q, h6, h7⟩
  · exact absurd ⟨s, ⟨le_rfl, rfl⟩, hclose⟩ (hc hT hN (by rw [exUsed]; simp) 0 ⟨le_rfl, .inl rfl⟩)

/-- The hypotheses of `C219_record_partial` hold, and those of `C219_exact_partial` for `tol = 0`: the first row of the
table, at midnight and local time 1, is at longitude 15 and placed at the magnetic latitude 60 + 15 / 36. -/
example : ∃ o, addOcb (exGeoLib 0) (dualCycler [0]) 0 0 exTable exNames (.column fun _ => .fin 0) "geodetic".toList [] 1 (bname .ocb) =
    .ok (some o) ∧ Holds exTable exNames exPlan (bname .ocb) o 0 exRec (some (60 + 15 / 36), some 6) := by
  obtain ⟨o, ho, q, h1, h2⟩ := exGeo_row 0 0 le_rfl le_rfl
  have u : Ocb.Scale.utHours (daySec 0) = 0 := by simp [Ocb.Scale.utHours, daySec]
  have e := exGeo_lon (by rw [u]; norm_num) (by rw [u]; norm_num) h1
  rw [u, sub_zero, mul_one] at e
  rw [e] at h2
  exact ⟨o, ho, h2⟩

/-- C219 refuted: a row at midnight that is matched with a record one minute later is placed, but not at the magnetic
location that the library gives at the row's own time: its longitude is taken from the local time and the time of the
record, a quarter of a degree off. -/
theorem C219_refuted :
    ∃ o, addOcb (exGeoLib 60) (dualCycler [60]) 0 60 exTable exNames (.column fun _ => .fin 0) "geodetic".toList [] 1 (bname .ocb) =
      .ok (some o) ∧ GeoRecords (dualCycler [60]) (fun _ => some (exRec, daySec 60)) daySec 1 74 ∧ ¬ Blank o 0 ∧
      ∀ q, MagOf exGeoA false (daySec (exTable.time 0)) (some 1, some 1, some 0) q →
        ¬ Holds exTable exNames exPlan (bname .ocb) o 0 exRec q := by
  obtain ⟨o, ho, q, h1, h2⟩ := exGeo_row 60 60 (by norm_num) le_rfl
  have u : Ocb.Scale.utHours (daySec 60) = 1 / 60 := by simp [Ocb.Scale.utHours, daySec]
  have e := exGeo_lon (by rw [u]; norm_num) (by rw [u]; norm_num) h1
  rw [u] at e
  have hem : ∀ a : ℝ, 0 < a → InHem exRec.hem a := by
    intro a ha
    simp [InHem, exRec, sign_pos ha]
  subst e
  rcases h2 with ⟨a, m, L, M, rc, e, -, c1, c2, c3, hpl, -⟩ | ⟨hno, -⟩
  · simp only [Prod.mk.injEq, Option.some.injEq] at e
    obtain ⟨rfl, rfl⟩ := e
    refine ⟨o, ho, exGeoRecords 60, ?_, ?_⟩
    · intro hbl
      obtain ⟨col, d1, d2⟩ := c1
      rw [hbl _ _ d1] at d2
      cases d2
    · intro q' h3 h4
      have u0 : Ocb.Scale.utHours (daySec (exTable.time 0)) = 0 := by simp [Ocb.Scale.utHours, daySec, exTable]
      have e' := exGeo_lon (by rw [u0]; norm_num) (by rw [u0]; norm_num) h3
      rw [u0, sub_zero, mul_one] at e'
      subst e'
      have same : ∀ {k : Name} {x y : ℝ}, Cell o k 0 (.fin x) → Cell o k 0 (.fin y) → x = y := by
        rintro k x y ⟨c1, d1, d2⟩ ⟨c2, d3, d4⟩
        rw [d1, Option.some.injEq] at d3
        subst d3
        rw [d2] at d4
        cases d4
        rfl
      rcases h4 with ⟨a, m, L', M', rc', e, -, c1', c2', c3', hpl', -⟩ | ⟨hno, -⟩
      · simp only [Prod.mk.injEq, Option.some.injEq] at e
        obtain ⟨rfl, rfl⟩ := e
        obtain rfl := same c1 c1'
        obtain rfl := same c2 c2'
        obtain rfl := same c3 c3'
        obtain ⟨m1, b1, -⟩ := hpl.back (by rw [abs_le]; constructor <;> norm_num)
        obtain ⟨m2, b2, -⟩ := hpl'.back (by rw [abs_le]; constructor <;> norm_num)
        rw [b1, Except.ok.injEq, Prod.mk.injEq] at b2
        have := b2.1
        norm_num at this
      · exact hno _ _ rfl (hem _ (by norm_num))
  · exact absurd (hem _ (by norm_num)) (hno _ _ rfl)

end Ocb.Pysat

namespace Ocb.XData

open Ocb.Files (Name)
open Ocb.Grid
open Ocb.Cycle
open Ocb.Coord
open Ocb.Time (Tod)
open Ocb.Scale (F Aacgm)
open Ocb.Geo (MagOf NamesMag NamesGeocentric)
open Ocb.Pysat (V Lib Names Plan plan under Placed GeoRecords geoLib geoNorm geoNorm_mag ocbNorm_out ocbRadius ocbScale entry)

variable {c : Cycler} {good : ℤ → Prop}

/-- What the cells of the new arrays at the indices `ix` hold for the magnetic location `q` and the circle `B` -/
def CellHolds (n : Names) (b : Name) (out : Name → Arr V) (ix : List ℕ) (B : Rec) (q : F × F) : Prop :=
  (∃ a m L M rc, q = (some a, some m) ∧ InHem B.hem a ∧ (out (under n.mlat b)).val ix = .fin L ∧
    (out (under n.mlt b)).val ix = .fin M ∧ (out (under "r_corr".toList b)).val ix = .fin rc ∧ Placed B a m L M rc) ∨
  ((∀ a m, q = (some a, some m) → ¬ InHem B.hem a) ∧ (out (under n.mlat b)).val ix = .nan ∧ (out (under n.mlt b)).val ix = .nan)

/-- C219 (partial): the cells of a set with geographic coordinates, in the layouts of C210, are placed in the same way, at
the location that the library gives at the time of the record. -/
theorem C219_cells_partial (A : Aacgm) (recs : ℤ → Option (Rec × Tod)) (tod : ℤ → Tod) (blat : ℝ)
    (vect : ℤ → ℕ → V → V → Ocb.Pysat.Init → Except PyErr (Name → V)) (hb : IsBoundary c good) (rec : ℤ) (h0 : -1 ≤ rec) (tol : ℤ)
    (htol : 0 ≤ tol) (S : XSet) (n : Names) (hgt : Height) (lc vc : Name) (hloc : ¬ NamesMag lc) (h : ℤ) (hh : h = 1 ∨ h = -1)
    (hrec : GeoRecords c recs tod h blat) (b : Name) (p : Plan) (base extra : List Name)
    (hp : plan (S.vars ++ S.coords) n = .ok p) (hs : Sound S p.need)
    (hl : Layout S n.mlat n.mlt p.need hgt base extra)
    (hk : (Ocb.Pysat.written n p b).Nodup) (out : Name → Arr V)
    (ho : addX (geoLib A recs lc blat vect) c rec tol S n hgt lc vc h b = .ok (some out)) (σ : Name → ℕ)
    (hσ : ∀ d ∈ base ++ extra, σ d < S.len d) (lat lt : ℝ) (hlat : cell S n.mlat σ = .fin lat) (hlt : cell S n.mlt σ = .fin lt) :
    (∃ r ti tr B q, Cand good rec r ∧ S.time[σ S.index]? = some ti ∧ At c.times r tr ∧ |ti - tr| ≤ tol ∧
      recs r = some (B, tod tr) ∧
      MagOf A (decide (NamesGeocentric lc)) (tod tr) (some lat, some lt, entry (heightAt S hgt σ)) q ∧
      CellHolds n b out ((base ++ extra).map σ) B q ∧
      (S.time.Pairwise (· ≤ ·) → StrictOn c.times (Cand good rec) →
        ∀ k, Cand good rec k → TimeNearer c S (σ S.index) r k)) ∨
    ((∀ k, (out k).val ((base ++ extra).map σ) = .nan) ∧
      (S.time.Pairwise (· ≤ ·) → NondecOn c.times (Cand good rec) → Chosen S n.mlat p.need h σ →
        ∀ k, Cand good rec k → ¬ TimeClose c S tol (σ S.index) k)) := by
  rcases (C210_cells_partial (geoLib A recs lc blat vect) hb rec h0 tol htol S n hgt lc vc h hh b p base extra hp hs hl hk out ho).2 σ hσ with
    ⟨r, v, -, hc, hcl, f2, f3, f4, f5, hne⟩ | hbl
  · left
    obtain ⟨ti, tr, hti, htr, hclose⟩ := hcl
    obtain ⟨B, g1, g2, g3, g4, g5⟩ := hrec r tr htr
    obtain ⟨q, q1, q2⟩ := geoNorm_mag A hloc g1 g2 (.fin lat) (.fin lt) (heightAt S hgt σ)
    have f2 : geoNorm A recs lc r (cell S n.mlat σ) (cell S n.mlt σ) (heightAt S hgt σ) = .ok v := f2
    rw [hlat, hlt, q2] at f2
    refine ⟨r, ti, tr, B, q, hc, hti, htr, hclose, g1, q1, ?_, hne⟩
    rcases ocbNorm_out g2 g5 r q (heightAt S hgt σ) with ⟨a, m, L, M, rc, e, hin, k1, k2⟩ | ⟨hno, w, k1⟩
    · left
      rw [k1, Except.ok.injEq] at f2
      subst f2
      exact ⟨a, m, L, M, rc, e, hin, f3, f4, f5, k2⟩
    · right
      rw [k1, Except.ok.injEq] at f2
      subst f2
      exact ⟨hno, f3, f4⟩
  · exact .inr hbl

/-- C219 (partial): a scaled variable of a set with geographic coordinates, in the layouts of C211, is the value with the
same labels times the ratio of the radius of the circle, corrected at the magnetic local time at the time of the record,
and the reference radius, squared for curls. -/
theorem C219_scaled_partial (A : Aacgm) (recs : ℤ → Option (Rec × Tod)) (tod : ℤ → Tod) (blat : ℝ)
    (vect : ℤ → ℕ → V → V → Ocb.Pysat.Init → Except PyErr (Name → V)) (hb : IsBoundary c good) (rec : ℤ) (h0 : -1 ≤ rec) (tol : ℤ)
    (htol : 0 ≤ tol) (S : XSet) (n : Names) (hgt : Height) (lc vc : Name) (hloc : ¬ NamesMag lc) (h : ℤ) (hh : h = 1 ∨ h = -1)
    (hrec : GeoRecords c recs tod h blat) (b : Name) (p : Plan) (base extra : List Name)
    (hp : plan (S.vars ++ S.coords) n = .ok p) (hs : Sound S p.need)
    (hl : Layout S n.mlat n.mlt p.need hgt base extra) (hord : InOrder S n.mlt p.need (base ++ extra))
    (hk : (Ocb.Pysat.written n p b).Nodup)
    (he : ∀ e ∈ p.evars ++ p.curls, e ∈ S.vars ∧ S.index ∈ (S.arr e).dims ∧
      (base ++ extra).filter (· ∈ (S.arr e).dims) <+: base ++ extra) (out : Name → Arr V)
    (ho : addX (geoLib A recs lc blat vect) c rec tol S n hgt lc vc h b = .ok (some out)) (σ : Name → ℕ)
    (hσ : ∀ d ∈ base ++ extra, σ d < S.len d) (lat lt : ℝ) (hlat : cell S n.mlat σ = .fin lat) (hlt : cell S n.mlt σ = .fin lt) :
    (∃ r tr B q, Cand good rec r ∧ At c.times r tr ∧ TimeClose c S tol (σ S.index) r ∧ recs r = some (B, tod tr) ∧
      MagOf A (decide (NamesGeocentric lc)) (tod tr) (some lat, some lt, entry (heightAt S hgt σ)) q ∧
      ∀ a m, q = (some a, some m) → InHem B.hem a →
        (∀ e ∈ p.evars, ∀ x, cell S e σ = .fin x →
          (out (under e b)).val ((base ++ extra).map σ) = .fin (x * ((B.r + B.rf m) / (90 - |B.blat|)))) ∧
        ∀ e ∈ p.curls, ∀ x, cell S e σ = .fin x →
          (out (under e b)).val ((base ++ extra).map σ) = .fin (x * ((B.r + B.rf m) / (90 - |B.blat|)) ^ 2)) ∨
    ∀ k, (out k).val ((base ++ extra).map σ) = .nan := by
  rcases C211_scaled_partial (geoLib A recs lc blat vect) hb rec h0 tol htol S n hgt lc vc h hh b p base extra hp hs hl hord hk he out ho σ hσ with
    ⟨r, v, -, hc, hcl, f2, f5, f7, f8⟩ | hbl
  · left
    obtain ⟨ti, tr, -, htr, -⟩ := id hcl
    obtain ⟨B, g1, g2, g3, g4, g5⟩ := hrec r tr htr
    obtain ⟨q, q1, q2⟩ := geoNorm_mag A hloc g1 g2 (.fin lat) (.fin lt) (heightAt S hgt σ)
    have f2 : geoNorm A recs lc r (cell S n.mlat σ) (cell S n.mlt σ) (heightAt S hgt σ) = .ok v := f2
    rw [hlat, hlt, q2] at f2
    refine ⟨r, tr, B, q, hc, htr, hcl, g1, q1, ?_⟩
    rintro a m rfl hin
    rcases ocbNorm_out g2 g5 r (some a, some m) (heightAt S hgt σ) with ⟨a', m', L, M, rc, e, -, k1, k2⟩ | ⟨hno, -⟩
    · simp only [Prod.mk.injEq, Option.some.injEq] at e
      obtain ⟨rfl, rfl⟩ := e
      rw [k1, Except.ok.injEq] at f2
      subst f2
      have hrad : (geoLib A recs lc blat vect).radius r (.fin rc) = .fin (B.r + B.rf m) := by
        simp only [geoLib, ocbRadius, g1, Option.map_some, entry, k2.corr]
      refine ⟨fun e he x hx => ?_, fun e he x hx => ?_⟩
      · obtain ⟨w, w1, w2⟩ := f7 e he
        rw [hrad, hx] at w1
        simp only [geoLib, ocbScale, entry, Except.ok.injEq] at w1
        rw [w2, ← w1, Ocb.Scale.normalEvar, mul_div_assoc, g4]
      · obtain ⟨w, w1, w2⟩ := f8 e he
        rw [hrad, hx] at w1
        simp only [geoLib, ocbScale, entry, Except.ok.injEq] at w1
        rw [w2, ← w1, Ocb.Scale.normalCurlEvar, g4]
    · exact absurd hin (hno a m rfl)
  · exact .inr hbl

/-- The hypotheses of `C219_cells_partial` and `C219_scaled_partial` hold for the set of C210 and one record at its time:
its second latitude, at local time 6 and so at longitude 90, is placed at the magnetic latitude 62.5. -/
example : ∃ out, addX (Ocb.Pysat.exGeoLib 0) (dualCycler [0]) 0 60 (exSet ["t".toList, "lat".toList, "z".toList]) exNames
    (.scalar (.fin 0)) "geodetic".toList [] 1 "ocb".toList = .ok (some out) ∧
    CellHolds exNames "ocb".toList out [0, 1, 0] exRec (some (125 / 2), some 6) ∧
    (out (under "e".toList "ocb".toList)).val [0, 1, 0] = .fin 10 := by
  set ds := ["t".toList, "lat".toList, "z".toList] with hds
  have hds' : ds = ["t".toList, "z".toList, "lat".toList] ∨ ds = ["t".toList, "lat".toList, "z".toList] := .inr hds
  have hb : IsBoundary (dualCycler [0]) (fun _ => True) := .dual [0] (by simp)
  obtain ⟨hN, hord, hch, hin, hus0, fe1, fe2⟩ := exFacts ds hds
  obtain ⟨a1, a2, a3, a4, a5⟩ := exArr ds
  have hp := exPlan_eq ds
  have he : ∀ e ∈ exNames.evars ++ exNames.curls, e ∈ (exSet ds).vars ∧ (exSet ds).index ∈ ((exSet ds).arr e).dims ∧
      (["t".toList, "lat".toList] ++ ["z".toList]).filter (· ∈ ((exSet ds).arr e).dims) <+: ["t".toList, "lat".toList] ++ ["z".toList] := by
    intro e hes
    change e ∈ ["e".toList] at hes
    rw [List.mem_singleton] at hes
    subst hes
    refine ⟨?_, fe1, fe2⟩
    change "e".toList ∈ ["lt".toList, "e".toList]
    decide +kernel
  obtain ⟨out, ho⟩ := C211_succeeds (Ocb.Pysat.exGeoLib 0) (Ocb.Pysat.exGeoLib_total 0) hb 0
    (by decide) 60 (by decide) (exSet ds) exNames (.scalar (.fin 0)) "geodetic".toList [] 1 (.inl rfl) "ocb".toList exPlan _ _ hp rfl
    (exSound ds hds') (exLayout ds hds' _) hord (by decide +kernel) he (by simp [exSet]) (fun _ τ _ _ _ _ => hch τ) hN
    (by simp [dualCycler]) (by
      rintro ⟨-, ⟨hx, -⟩ | ⟨-, hx⟩⟩
      · omega
      · have := hx 0 0 0 ⟨le_rfl, rfl⟩ ⟨le_rfl, .inl rfl⟩ hus0
        omega)
  have n3 : ¬ "z".toList = "lat".toList := by decide +kernel
  have n6 : ¬ "t".toList = "lat".toList := by decide +kernel
  let σ : Name → ℕ := fun d => if d = "lat".toList then 1 else 0
  have s1 : σ "t".toList = 0 := if_neg n6
  have s2 : σ "lat".toList = 1 := if_pos rfl
  have s3 : σ "z".toList = 0 := if_neg n3
  have hσ := hin σ s1 (by omega) (by omega)
  have hlat : cell (exSet ds) exNames.mlat σ = .fin 71 := by
    change cell (exSet ds) "lat".toList σ = .fin 71
    rw [cell, a2]
    simp only [List.map_cons, List.map_nil, s2]
    norm_num
  have hmlt : cell (exSet ds) exNames.mlt σ = .fin 6 := by
    change cell (exSet ds) "lt".toList σ = .fin 6
    rw [cell, a4]
  have hix : (["t".toList, "lat".toList] ++ ["z".toList]).map σ = [0, 1, 0] := by
    change [σ "t".toList, σ "lat".toList, σ "z".toList] = [0, 1, 0]
    rw [s1, s2, s3]
  have u : Ocb.Scale.utHours (Ocb.Pysat.daySec 0) = 0 := by simp [Ocb.Scale.utHours, Ocb.Pysat.daySec]
  have hlon : ∀ {geoc : Bool} {hgt : F} {q : F × F}, MagOf Ocb.Pysat.exGeoA geoc (Ocb.Pysat.daySec 0) (some 71, some 6, hgt) q →
      q = (some (125 / 2), some 6) := by
    intro geoc hgt q hq
    have e := Ocb.Pysat.exGeo_lon (by rw [u]; norm_num) (by rw [u]; norm_num) hq
    rw [u] at e
    rw [e]
    norm_num
  have hcell := C219_cells_partial Ocb.Pysat.exGeoA _ Ocb.Pysat.daySec 74 _ hb 0 (by decide) 60 (by decide) (exSet ds) exNames
    (.scalar (.fin 0)) "geodetic".toList [] Ocb.Pysat.exGeo_loc 1
    (.inl rfl) (Ocb.Pysat.exGeoRecords 0) "ocb".toList exPlan _ _ hp (exSound ds hds') (exLayout ds hds' _) (by decide +kernel) out ho σ hσ 71 6
    hlat hmlt
  have hsc := C219_scaled_partial Ocb.Pysat.exGeoA _ Ocb.Pysat.daySec 74 _ hb 0 (by decide) 60 (by decide) (exSet ds) exNames
    (.scalar (.fin 0)) "geodetic".toList [] Ocb.Pysat.exGeo_loc 1
    (.inl rfl) (Ocb.Pysat.exGeoRecords 0) "ocb".toList exPlan _ _ hp (exSound ds hds') (exLayout ds hds' _) hord (by decide +kernel) he out ho σ hσ
    71 6 hlat hmlt
  rw [hix] at hcell hsc
  refine ⟨out, ho, ?_⟩
  have hem : InHem exRec.hem (125 / 2) := by simp [InHem, exRec]
  rcases hcell with ⟨r, ti, tr, B, q, -, -, htr, -, hB, hq, hh, -⟩ | ⟨-, hc⟩
  · obtain ⟨-, rfl⟩ := Ocb.Pysat.exGeoAt htr
    simp only [Option.some.injEq, Prod.mk.injEq] at hB
    obtain ⟨rfl, -⟩ := hB
    rw [hlon hq] at hh
    refine ⟨hh, ?_⟩
    rcases hsc with ⟨r', tr', B', q', -, htr', -, hB', hq', hev⟩ | hnan
    · obtain ⟨-, rfl⟩ := Ocb.Pysat.exGeoAt htr'
      simp only [Option.some.injEq, Prod.mk.injEq] at hB'
      obtain ⟨rfl, -⟩ := hB'
      have hx : cell (exSet ds) "e".toList σ = .fin 10 := by
        rw [cell, a5, hds]
        simp only [List.map_cons, List.map_nil, s1, s2, s3]
        norm_num
      have := (hev _ _ (hlon hq') hem).1 "e".toList (by change "e".toList ∈ ["e".toList]; decide +kernel) 10 hx
      have e : (10 : ℝ) * ((exRec.r + exRec.rf 6) / (90 - |exRec.blat|)) = 10 := by
        norm_num [exRec]
      rw [e] at this
      exact this
    · rcases hh with ⟨_, _, L, _, _, _, _, c1, _⟩ | ⟨hno, -⟩
      · rw [hnan] at c1
        simp at c1
      · exact absurd hem (hno _ _ rfl)
  · exfalso
    refine hc (by change [(0 : ℤ)].Pairwise (· ≤ ·); simp) hN (hch σ) 0 ⟨le_rfl, .inl rfl⟩ ⟨0, 0, ?_, ⟨le_rfl, rfl⟩, by simp⟩
    change [(0 : ℤ)][σ "t".toList]? = some 0
    rw [s1]
    rfl

end Ocb.XData
