import Verif.Props.SmagOut
import Verif.Props.SetOcbMore

/-!
# Properties C112 to C114: values, hemisphere and input of the SuperMAG conversion
-/

set_option autoImplicit false

namespace Ocb.SmagOut

open Ocb.Files (Name)
open Ocb.Vort (F Conv)
open Ocb.Smag (Val driveGroups Block)
open Ocb.Coord (Rec normalArr selRec normalPt NormalOut InHem)
open Ocb.Cycle hiding Bnd
open Ocb.Scale (Arr VD Bnd Args construct setOcb SameVec mag3)
open Ocb.Time (Tod)
open Ocb.VortOut (sgn chooseHem pick pick_get pick_range pyIdx_nat mapE_rows mapE_total OneSided)
open Ocb.Vec

variable {good : ℤ → Prop}

/-! ### C112 -/

/-- C112 for an `OCBoundary` of the northern hemisphere and stations off the pole: each row has the latitude of the station,
its boundary coordinates at the record, and its vector turned to the centre of the circle and scaled, see `Values`. -/
theorem C112_north (recs : List Rec) (blat : ℝ) (times : List Tod) (cyc : Cycler) (cursor : ℤ)
    (hb : IsBoundary cyc good) (h0 : -1 ≤ cursor) (hu : Usable recs times cyc 1) (tol : ℤ) (htol : 0 ≤ tol)
    (scale : Option (F → F → F → F)) (m : Mag) (hm : Even m) (hlat : ∀ x, some x ∈ m.mlat → |x| < 90) (rows : List Row)
    (h : write (single recs 1 blat times cyc cursor) 1 tol scale m = .ok (.file rows)) :
    ∃ l : List (ℕ × ℤ), Pairs (single recs 1 blat times cyc cursor) good 1 tol m l ∧
      List.Forall₂ (fun p o => Copied m p.1 o ∧
        ∃ (k : ℕ) (B : Rec), (k : ℤ) = p.2 ∧ recs[k]? = some B ∧ ∀ x l n e z, Station m p.1 x l n e z →
          Values B blat scale x l n e z o) l rows :=
  values_rows hb h0 hu htol hm hlat h

/-- C112 for either hemisphere: latitude, boundary coordinates and the magnitude of the vector.  Missing: the components in
the south, see `C112_south_refuted`. -/
theorem C112_coords_partial (recs : List Rec) (hem : ℤ) (blat : ℝ) (times : List Tod) (cyc : Cycler) (cursor : ℤ)
    (hb : IsBoundary cyc good) (h0 : -1 ≤ cursor) (hu : Usable recs times cyc hem) (tol : ℤ) (htol : 0 ≤ tol)
    (scale : Option (F → F → F → F)) (m : Mag) (hm : Even m) (hlat : ∀ x, some x ∈ m.mlat → |x| < 90) (rows : List Row)
    (h : write (single recs hem blat times cyc cursor) hem tol scale m = .ok (.file rows)) :
    ∃ l : List (ℕ × ℤ), Pairs (single recs hem blat times cyc cursor) good hem tol m l ∧
      List.Forall₂ (fun p o => Copied m p.1 o ∧
        ∃ (k : ℕ) (B : Rec), (k : ℤ) = p.2 ∧ recs[k]? = some B ∧ ∀ x l n e z, Station m p.1 x l n e z →
          o.lat = some x ∧
          (∃ L M, normalPt B x l = .ok (L, M, B.rf l) ∧ o.ocbLat = some L ∧ o.ocbMlt = some M ∧ 0 ≤ M ∧ M < 24) ∧
          ∀ a b c : ℝ, o.ocbN = some a → o.ocbE = some b → o.ocbZ = some c → o.ocbMag = some (√(a ^ 2 + b ^ 2 + c ^ 2)))
        l rows := by
  obtain ⟨l, h1, h2⟩ := values_rows hb h0 hu htol hm hlat h
  refine ⟨l, h1, h2.imp fun p o hp => ⟨hp.1, ?_⟩⟩
  obtain ⟨k, B, e1, e2, e3⟩ := hp.2
  exact ⟨k, B, e1, e2, fun x l n e z hs => ⟨(e3 x l n e z hs).lat, (e3 x l n e z hs).coords, (e3 x l n e z hs).mag⟩⟩

/-- C112 is false for the components in the south: without scaling, an eastward vector of a station off the meridian of the
circle's centre gets a northward component of the wrong sign.  The centre of the circle is at latitude `-(90 - rCent)` and
north in boundary coordinates is the direction away from it. -/
theorem C112_south_refuted (recs : List Rec) (blat : ℝ) (times : List Tod) (cyc : Cycler) (cursor : ℤ)
    (hb : IsBoundary cyc good) (h0 : -1 ≤ cursor) (hu : Usable recs times cyc (-1)) (hc : ∀ B ∈ recs, 0 < B.rCent) (tol : ℤ)
    (htol : 0 ≤ tol) (m : Mag) (hm : Even m) (hlat : ∀ x, some x ∈ m.mlat → |x| < 90) (rows : List Row)
    (h : write (single recs (-1) blat times cyc cursor) (-1) tol none m = .ok (.file rows)) :
    ∃ l : List (ℕ × ℤ), l.length = rows.length ∧ List.Forall₂ (fun p o => ∃ (k : ℕ) (B : Rec), (k : ℤ) = p.2 ∧ recs[k]? = some B ∧
      ∀ x l e z, Station m p.1 x l 0 e z → e ≠ 0 → (∀ i : ℤ, B.phiCent / 15 ≠ l + 12 * i) → ∃ y, o.ocbN = some y ∧
        y * (-towards (place x l) (place (-(90 - B.rCent)) (B.phiCent / 15)) (horiz x l 0 e)) < 0) l rows := by
  obtain ⟨l, h1, h2⟩ := values_rows hb h0 hu htol hm hlat h
  refine ⟨l, h2.length_eq, h2.imp fun p o hp => ?_⟩
  obtain ⟨k, B, e1, e2, e3⟩ := hp.2
  have hB := List.mem_of_getElem? e2
  refine ⟨k, B, e1, e2, fun x l e z hs he hoff => ?_⟩
  refine ⟨_, ((e3 x l 0 e z hs).vec hoff fun h => he h.2).1, ?_⟩
  exact Scale.mirror_sign (hlat x (List.mem_of_getElem? hs.lat)) (hc B hB) (hu.valid B hB).2.2.2 hoff he

/-! ### one station -/

/-- One station at time 0. -/
def station (x l n e z : ℝ) : Mag :=
  ⟨[0], ["ABC".toList], [-100], [50], [some 60], [some x], [some l], [some n], [some e], [some z]⟩

theorem station_even (x l n e z : ℝ) : Even (station x l n e z) := ⟨rfl, rfl, rfl, rfl, rfl, rfl, rfl, rfl, rfl⟩

theorem station_is (x l n e z : ℝ) : Station (station x l n e z) 0 x l n e z := ⟨rfl, rfl, rfl, rfl, rfl⟩

theorem station_good {x l n e z : ℝ} {hem : ℤ} (h : (SignType.sign x : ℤ) = hem) : igood (station x l n e z) hem = [0] := by
  have h1 : (0 : ℕ) ∈ igood (station x l n e z) hem := igood_mem.2 ⟨x, l, n, e, z, station_is x l n e z, h⟩
  unfold igood at h1 ⊢
  rw [List.mem_filter] at h1
  show List.filter _ (List.range 1) = [0]
  rw [show List.range 1 = [0] from rfl, List.filter_cons, if_pos h1.2, List.filter_nil]

theorem station_cut {x l n e z : ℝ} {hem : ℤ} (h : (SignType.sign x : ℤ) = hem) :
    cut (station x l n e z) hem = station x l n e z := by
  unfold cut
  rw [station_good h, if_neg]
  simp [station]

/-- One datum and one record, both at time 0. -/
theorem one_group {c : Cycler} (hb : IsBoundary c good) (hc : c.times = [0]) {tol : ℤ} (htol : 0 ≤ tol) :
    driveGroups c [0] tol 0 0 = .ok [([0], 0)] := by
  have hD : ([0] : List ℤ).Pairwise (· ≤ ·) := by simp
  have hN : NondecOn c.times (Cand good 0) := by rw [hc]; exact VortOut.zero_nondec _
  have herr := Smag.C59_error_iff hb [0] tol htol 0 (by omega) hD hN
  cases hd : driveGroups c [0] tol 0 0 with
  | error e =>
    exfalso
    obtain ⟨-, -, ⟨h, -⟩ | ⟨-, h⟩⟩ := (herr e).1 hd
    · simp at h
    · have := h 0 0 0 (by rw [hc]; exact ⟨le_rfl, rfl⟩) ⟨le_rfl, .inl rfl⟩ rfl
      omega
  | ok gs =>
    obtain ⟨g1, g2, -, -⟩ := Smag.C59_groups hb [0] tol htol 0 (by omega) gs hd
    have hin := (Smag.C59_complete hb [0] tol htol 0 (by omega) hD hN gs hd 0).2
      ⟨0, ⟨le_rfl, .inl rfl⟩, 0, 0, rfl, by rw [hc]; exact ⟨le_rfl, rfl⟩, by simpa using htol⟩
    have hall : ∀ p ∈ gs, p = ([0], 0) := by
      intro p hp
      obtain ⟨a1, a2, -, -, a5⟩ := g1 p hp
      have hz : ∀ j ∈ p.1, j = 0 ∧ p.2 = 0 := by
        intro j hj
        obtain ⟨_, _, b1, ⟨b2, b3⟩, -⟩ := a5 j hj
        have := (List.getElem?_eq_some_iff.1 b1).1
        have h2 := (List.getElem?_eq_some_iff.1 b3).1
        rw [hc] at h2
        simp only [List.length_singleton] at this h2
        omega
      obtain ⟨js, k⟩ := p
      match js, a1, a2, hz with
      | [j], _, _, hz =>
        obtain ⟨rfl, h⟩ := hz j List.mem_cons_self
        simp only at h
        rw [h]
      | j :: j' :: _, _, a2, hz =>
        have h1 := (hz j List.mem_cons_self).1
        have h2 := (hz j' (by simp)).1
        have := (List.pairwise_cons.1 a2).1 j' List.mem_cons_self
        omega
    match gs, hall, hin, g2 with
    | [p], hall, _, _ => rw [hall p List.mem_cons_self]
    | p :: q :: _, hall, _, g2 =>
      have a := hall p List.mem_cons_self
      have b := hall q (by simp)
      rw [a, b] at g2
      simp at g2

theorem station_write {b : Bound} (hb : IsBoundary b.cyc good) (hc : b.cyc.times = [0]) (h0 : b.cursor = 0) {tol : ℤ}
    (htol : 0 ≤ tol) {scale : Option (F → F → F → F)} {x l n e z : ℝ} {hem : ℤ} (h : (SignType.sign x : ℤ) = hem)
    {rs : List Row} (hg : group b scale (station x l n e z) [0] 0 = .ok rs) :
    write b hem tol scale (station x l n e z) = .ok (.file rs) := by
  rw [write_run (by rw [hc]; simp), station_cut h, h0]
  have : driveGroups b.cyc (station x l n e z).time tol 0 0 = .ok [([0], 0)] := one_group hb hc htol
  rw [this]
  simp only [mapE, hg, List.flatten_cons, List.flatten_nil, List.append_nil]

/-- The hypotheses of C110 to C112 are met: a station at latitude 80 and a northern record give a file with one row. -/
theorem station_row {B : Rec} {hem : ℤ} {times : List Tod} {cyc : Cycler} (hb : IsBoundary cyc good) (hc : cyc.times = [0])
    (hu : Usable [B] times cyc hem) (blat : ℝ) (scale : Option (F → F → F → F)) {x l n e z : ℝ} (hx : |x| < 90)
    (h : (SignType.sign x : ℤ) = hem) : ∃ o, write (single [B] hem blat times cyc 0) hem 60 scale (station x l n e z) =
      .ok (.file [o]) := by
  obtain ⟨rs, r1, r2⟩ := group_run (blat := blat) (scale := scale) (m := station x l n e z) (cursor := 0) (tol := 60) hb (by omega) hu
    (by norm_num) (station_even _ _ _ _ _) (by intro y hy; simp [station] at hy; rwa [hy]) (g := ([0], 0)) (gs := [([0], 0)])
    (by rw [station_cut h]; exact one_group hb hc (by norm_num)) (by simp)
  rw [station_cut h] at r1
  cases r2 with
  | cons a b =>
    cases b
    exact ⟨_, station_write (b := single [B] hem blat times cyc 0) hb hc rfl (by norm_num) h r1⟩

/-- The cycler of an `OCBoundary` with one record at time 0. -/
noncomputable def zeroCyc : Cycler := Cycle.Bnd.cycler ⟨[0], [.fin 1], [], .fin 0, .pinf⟩ none none []

theorem zeroCyc_ok : ∃ good, IsBoundary zeroCyc good :=
  ⟨_, IsBoundary.ocb _ none none [] ⟨rfl, by intro k v h; simp [Cycle.Bnd.attr] at h⟩⟩

theorem north_usable (t : Tod) : Usable [Coord.exRec] [t] zeroCyc 1 := by
  refine ⟨rfl, rfl, fun B hB => ?_⟩
  rw [List.mem_singleton] at hB
  subst hB
  exact ⟨Coord.exRec_valid, by norm_num [Coord.exRec], by norm_num [Coord.exRec], by norm_num [Coord.exRec]⟩

theorem south_usable (t : Tod) : Usable [VortOut.southRec] [t] zeroCyc (-1) := by
  refine ⟨rfl, rfl, fun B hB => ?_⟩
  rw [List.mem_singleton] at hB
  subst hB
  exact ⟨⟨.inr rfl, by norm_num [VortOut.southRec], by rw [abs_lt]; constructor <;> norm_num [VortOut.southRec]⟩,
    by norm_num [VortOut.southRec], by norm_num [VortOut.southRec], by norm_num [VortOut.southRec]⟩

/-- The hypotheses of C110 to C112 are met. -/
example (t : Tod) : ∃ o, write (single [Coord.exRec] 1 74 [t] zeroCyc 0) 1 60 none (station 80 3 1 2 3) =
    .ok (.file [o]) := by
  obtain ⟨good, hb⟩ := zeroCyc_ok
  exact station_row hb rfl (north_usable t) 74 _ (by rw [abs_lt]; norm_num) (by rw [sign_pos (by norm_num)]; rfl)

/-- The hypotheses of `C112_south_refuted` are met. -/
example (t : Tod) : (∃ o, write (single [VortOut.southRec] (-1) (-74) [t] zeroCyc 0) (-1) 60 none (station (-80) 3 0 2 3) =
    .ok (.file [o])) ∧ (∀ i : ℤ, VortOut.southRec.phiCent / 15 ≠ 3 + 12 * i) := by
  obtain ⟨good, hb⟩ := zeroCyc_ok
  refine ⟨station_row hb rfl (south_usable t) (-74) _ (by rw [abs_lt]; norm_num) (by rw [sign_neg (by norm_num)]; rfl), ?_⟩
  intro i hi
  simp only [VortOut.southRec] at hi
  have : (3 : ℝ) = 12 * i := by linarith
  have h2 : (3 : ℤ) = 12 * i := by exact_mod_cast this
  omega

/-! ### C113 -/

/-- What the row of a station owes when the boundary is of the other hemisphere. -/
structure Blank (m : Mag) (i : ℕ) (o : Row) : Prop where
  lat : m.mlat[i]? = some o.lat
  coords : o.ocbLat = none ∧ o.ocbMlt = none
  vec : o.ocbN = none ∧ o.ocbE = none ∧ o.ocbZ = none ∧ o.ocbMag = none

/-- `normal_coord` of locations of the other hemisphere. -/
theorem normal_out {B : Rec} {pts : List (F × F)} (h : ∀ p ∈ pts, Coord.wrongHem B.hem p.1 = true) :
    normalArr (some B) pts = .ok (pts.map fun _ => (none, none, none), pts.map fun p => p.1) := by
  unfold normalArr
  simp only
  by_cases hn : pts = []
  · subst hn
    simp [mapE, pure, Except.pure, bind, Except.bind]
  rw [if_pos]
  rw [Bool.and_eq_true, List.any_eq_true, List.all_eq_true]
  obtain ⟨p, hp⟩ := List.exists_mem_of_ne_nil _ hn
  refine ⟨⟨p.1, List.mem_map.2 ⟨p, hp, rfl⟩, h p hp⟩, fun x hx => ?_⟩
  obtain ⟨q, hq, rfl⟩ := List.mem_map.1 hx
  exact h q hq

/-- The rows of one time for an `OCBoundary` of the other hemisphere. -/
theorem group_blank {recs : List Rec} {hem : ℤ} {blat : ℝ} {times : List Tod} {cyc : Cycler} {cursor : ℤ}
    {scale : Option (F → F → F → F)} {m : Mag} (hm : Even m) {idx : List ℕ} {k : ℕ} {B : Rec}
    (hB : recs[k]? = some B) (ht : k < times.length)
    (hi : ∀ i ∈ idx, i < m.time.length ∧ ∀ x, m.mlat[i]? = some x → Coord.wrongHem B.hem x = true) :
    ∃ rs, group (single recs hem blat times cyc cursor) scale m idx k = .ok rs ∧
      List.Forall₂ (fun i o => Copied m i o ∧ Blank m i o) idx rs := by
  obtain ⟨v, mag, c1, c2, c3, c4, c5, c6, c7, c8, c9, c10, c11, c12, c13, c14, c15, c16, cn⟩ :=
    construct_group hm scale (idx := idx) k fun i h => (hi i h).1
  have p : ∀ {α : Type} (l : List α), l.length = m.time.length → (pick idx l).length = idx.length := by
    intro α l hl
    exact pick_length (by rw [hl]; exact fun i h => (hi i h).1)
  have get : ∀ {α : Type} (l : List α), l.length = m.time.length → ∀ a : ℕ, (pick idx l)[a]? = idx[a]?.bind fun i : ℕ => l[i]? :=
    fun l hl a => pick_get (by rw [hl]; exact fun i h => (hi i h).1) a
  set b' : Bnd := { (single recs hem blat times cyc cursor).bnd with recInd := k } with hb'
  have hsel : selRec recs (k : ℤ) = some B := by
    unfold selRec
    rw [if_pos (by omega), Int.toNat_natCast]
    exact hB
  have hw : ∀ q ∈ (pick idx m.mlat).zip (pick idx m.mlt), Coord.wrongHem B.hem q.1 = true := by
    intro q hq
    obtain ⟨a, ha⟩ := List.mem_iff_getElem?.1 hq
    obtain ⟨h1, -⟩ := List.getElem?_zip_eq_some.1 ha
    rw [get _ hm.mlat, Option.bind_eq_some_iff] at h1
    obtain ⟨i, h2, h3⟩ := h1
    exact (hi i (List.mem_of_getElem? h2)).2 _ h3
  have hl1 : ((pick idx m.mlat).zip (pick idx m.mlt)).map (fun q => q.1) = pick idx m.mlat :=
    List.map_fst_zip (by rw [p _ hm.mlat, p _ hm.mlt])
  have hlen : ((pick idx m.mlat).zip (pick idx m.mlt)).length = idx.length := by
    rw [List.length_zip, p _ hm.mlat, p _ hm.mlt, Nat.min_self]
  have hnan : ∀ f : F × F × F → F, f (none, none, none) = none →
      (((pick idx m.mlat).zip (pick idx m.mlt)).map fun _ => ((none, none, none) : F × F × F)).map f = List.replicate idx.length none := by
    intro f hf
    rw [List.map_map, ← hlen]
    refine List.eq_replicate_iff.2 ⟨by rw [List.length_map], fun y hy => ?_⟩
    obtain ⟨_, _, rfl⟩ := List.mem_map.1 hy
    exact hf
  have hnorm : b'.normal k v.lat v.lt v.locCoord v.height = .ok (v.lat, .many (List.replicate idx.length none),
      .many (List.replicate idx.length none), .many (List.replicate idx.length none)) := by
    show normalOf recs k v.lat v.lt = _
    rw [c5, c6]
    unfold normalOf
    simp only [hsel, normal_out hw, bind, Except.bind, pure, Except.pure]
    rw [hnan _ rfl, hnan _ rfl, hnan _ rfl, hl1]
  have hmiss : Scale.coordsMissing v = true := by
    unfold Scale.coordsMissing
    rw [c13]
    rfl
  have htime : pyIdx b'.dtime b'.recInd = .ok times[k] := pyIdx_nat.2 (List.getElem?_eq_getElem ht)
  have hset : setOcb (fun v _ _ => .ok v) b' none v = .ok ({ v with
      ocbLat := .many (List.replicate idx.length none), ocbMlt := .many (List.replicate idx.length none)
      rCorr := .many (List.replicate idx.length none) }, (k : ℤ)) := by
    unfold setOcb Scale.fillCoords Scale.timesOf
    simp only [bind, Except.bind, pure, Except.pure, c4, c12, ne_eq, not_true_eq_false, if_false, hmiss, if_true, htime, Except.map]
    rw [hnorm]
    simp only [Scale.spread_one]
    rw [if_pos]
    unfold Scale.coordsMissing
    simp only [Bool.or_eq_true]
    left; left
    simp [Arr.allNan, Arr.entries]
  have hgroup : group (single recs hem blat times cyc cursor) scale m idx k =
      mapE (row m { v with
        ocbLat := .many (List.replicate idx.length none), ocbMlt := .many (List.replicate idx.length none)
        rCorr := .many (List.replicate idx.length none) } idx.length) ((List.range idx.length).zip idx) := by
    unfold group
    rw [c1]
    simp only [bind, Except.bind]
    rw [hset]
  have hrep : ∀ a, a < idx.length → arrAt (Arr.many (List.replicate idx.length (none : F))) a = .ok none := by
    intro a ha
    rw [arrAt_many]
    simp [ha]
  have hvec : v.ocbN = .many (List.replicate idx.length none) ∧ v.ocbE = .many (List.replicate idx.length none) ∧
      v.ocbZ = .many (List.replicate idx.length none) ∧ v.ocbMag = .many (List.replicate idx.length none) :=
    ⟨cn _ (by simp), cn _ (by simp), cn _ (by simp), cn _ (by simp)⟩
  have hmag : ∃ l : List F, mag = .many l ∧ l.length = idx.length := by
    unfold Scale.magArr at c2
    simp only [Arr.zip, p _ hm.bn, p _ hm.be, p _ hm.bz, bind, Except.bind, if_true, List.length_zip, Nat.min_self, pure,
      Except.pure, Except.ok.injEq] at c2
    exact ⟨_, c2.symm, by simp [p _ hm.bn, p _ hm.be, p _ hm.bz]⟩
  obtain ⟨ml, hml, hml'⟩ := hmag
  have hok : ∃ rs, group (single recs hem blat times cyc cursor) scale m idx k = .ok rs := by
    rw [hgroup]
    refine mapE_total fun q hq => ?_
    obtain ⟨a, ha⟩ := List.mem_iff_getElem?.1 hq
    obtain ⟨h1, h2⟩ := List.getElem?_zip_eq_some.1 ha
    obtain ⟨hlt, hp1⟩ := List.getElem?_eq_some_iff.1 h1
    rw [List.getElem_range] at hp1
    rw [List.length_range] at hlt
    have ht := (hi _ (List.mem_of_getElem? h2)).1
    have g : ∀ {α : Type} (l : List α), l.length = m.time.length → ∃ y, pyIdx l (q.2 : ℤ) = .ok y := fun l hl =>
      ⟨_, pyIdx_nat.2 (List.getElem?_eq_getElem (by omega))⟩
    have g' : ∀ l : List F, l.length = idx.length → ∃ y, arrAt (.many l) a = .ok y := fun l hl =>
      ⟨_, arrAt_many.2 (List.getElem?_eq_getElem (by omega))⟩
    obtain ⟨y1, g1⟩ := g m.time rfl
    obtain ⟨y2, g2⟩ := g m.id hm.id
    obtain ⟨y3, g3⟩ := g m.sml hm.sml
    obtain ⟨y4, g4⟩ := g m.smu hm.smu
    obtain ⟨y5, g5⟩ := g m.sza hm.sza
    obtain ⟨y6, g6⟩ := g' _ (p _ hm.mlat)
    obtain ⟨y7, g7⟩ := g' _ (p _ hm.mlt)
    obtain ⟨y8, g8⟩ := g' _ hml'
    obtain ⟨y9, g9⟩ := g' _ (p _ hm.bn)
    obtain ⟨y10, g10⟩ := g' _ (p _ hm.be)
    obtain ⟨y11, g11⟩ := g' _ (p _ hm.bz)
    unfold row
    simp only [bind, Except.bind, pure, Except.pure, ← hp1, g1, g2, g3, g4, g5, c5, c6, c7, c8, c9, c10, hml, g6, g7, g8, g9, g10,
      g11, hvec.1, hvec.2.1, hvec.2.2.1, hvec.2.2.2, hrep a hlt]
    exact ⟨_, rfl⟩
  obtain ⟨rs, hrs⟩ := hok
  refine ⟨rs, hrs, ?_⟩
  have hcop := group_rows hm (fun i h => (hi i h).1) hrs
  obtain ⟨r1, r2⟩ := zip_range (mapE_rows (hgroup.symm.trans hrs))
  rw [List.forall₂_iff_get] at hcop ⊢
  refine ⟨hcop.1, fun a h1 h2 => ⟨(hcop.2 a h1 h2).1, ?_⟩⟩
  simp only [List.get_eq_getElem]
  have hg := List.getElem?_eq_getElem h1
  obtain ⟨o, o1, o2⟩ := r2 a _ hg
  rw [List.getElem?_eq_getElem h2, Option.some.injEq] at o1
  rw [o1]
  obtain ⟨-, -, -, -, -, q6, -, -, -, -, -, q12, q13, q14, q15, q16, q17, -⟩ := row_parts o2
  simp only [c5, arrAt_many, get _ hm.mlat, hg, Option.bind_some] at q6
  simp only [hvec.1, hvec.2.1, hvec.2.2.1, hvec.2.2.2, hrep a h1, Except.ok.injEq] at q12 q13 q14 q15 q16 q17
  exact ⟨q6, ⟨q12.symm, q13.symm⟩, q15.symm, q16.symm, q17.symm, q14.symm⟩

theorem other_hem {B : Rec} {bhem hem : ℤ} (hB : B.hem = bhem) (hne : hem ≠ bhem) {x : ℝ} (hx : (SignType.sign x : ℤ) = hem) :
    Coord.wrongHem B.hem (some x) = true := by
  rw [← Bool.not_eq_false, Coord.wrongHem_iff]
  rintro ⟨y, e, hin⟩
  rw [Option.some.injEq] at e
  subst e
  unfold InHem at hin
  rw [hB] at hin
  apply hne
  rw [← hx]
  have : ((SignType.sign x : ℤ) : ℝ) = (bhem : ℝ) := by rw [← hin]; simp
  exact_mod_cast this

theorem group_other {recs : List Rec} {bhem hem : ℤ} {blat : ℝ} {times : List Tod} {cyc : Cycler} {cursor : ℤ}
    (hb : IsBoundary cyc good) (h0 : -1 ≤ cursor) (hu : Usable recs times cyc bhem) (hne : hem ≠ bhem) {tol : ℤ} (htol : 0 ≤ tol)
    {scale : Option (F → F → F → F)} {m : Mag} (hm : Even m)
    {gs : List (List ℕ × ℤ)} (hgs : driveGroups cyc (cut m hem).time tol 0 cursor = .ok gs) {g : List ℕ × ℤ} (hg : g ∈ gs) :
    ∃ rs, group (single recs bhem blat times cyc cursor) scale (cut m hem) g.1 g.2 = .ok rs ∧
      List.Forall₂ (fun j o => Copied m (org m hem j) o ∧ Blank m (org m hem j) o) g.1 rs := by
  obtain ⟨t, h1, h2, h3, h4, h5⟩ := group_of (b := single recs bhem blat times cyc cursor) hb h0 htol hm hgs hg
  obtain ⟨j0, hj0⟩ := List.exists_mem_of_ne_nil _ h3
  obtain ⟨k, B, e1, e2, e3, e4⟩ := close_record hu (h5 j0 hj0).2.2.2
  obtain ⟨v1, v2, -⟩ := hu.valid B e4
  obtain ⟨rs, r1, r2⟩ := group_blank (hem := bhem) (blat := blat) (times := times) (cyc := cyc) (cursor := cursor) (scale := scale)
    (cut_even hm hem) (idx := g.1) e2 e3 (by
      intro j hj
      obtain ⟨a1, a2, a3, a4⟩ := h5 j hj
      refine ⟨(List.getElem?_eq_some_iff.1 a2).1, fun y hy => ?_⟩
      obtain ⟨x, l, n, e, z, s1, s2⟩ := igood_mem.1 (List.mem_of_getElem? a1)
      rw [(cut_same hm a1).mlat, s1.lat, Option.some.injEq] at hy
      subst hy
      exact other_hem v2 hne s2)
  refine ⟨rs, by rw [e1]; exact r1, ?_⟩
  rw [List.forall₂_iff_get] at r2 ⊢
  refine ⟨r2.1, fun a a1 a2 => ?_⟩
  obtain ⟨f1, f2⟩ := r2.2 a a1 a2
  simp only [List.get_eq_getElem] at f1 f2 ⊢
  have hj := h5 _ (List.getElem_mem a1)
  exact ⟨f1.orig hm hj.1, (cut_same hm hj.1).mlat ▸ f2.lat, f2.coords, f2.vec⟩

/-- C113: without a hemisphere argument, the hemisphere of a given boundary object is used. -/
theorem C113_own_partial (b : Bound) (make : ℤ → ℤ → ℤ → Except PyErr Bound) (tol : ℤ) (m : Mag) :
    setup (some b) make 0 tol m = .ok (b, b.bnd.hem) := rfl

/-- C113: if the hemisphere argument is not the one of the given boundary object, each row has the measured values but NaN
for everything in boundary coordinates. -/
theorem C113_nan_rows (recs : List Rec) (bhem hem : ℤ) (blat : ℝ) (times : List Tod) (cyc : Cycler) (cursor : ℤ)
    (hb : IsBoundary cyc good) (h0 : -1 ≤ cursor) (hu : Usable recs times cyc bhem) (hne : hem ≠ bhem) (tol : ℤ) (htol : 0 ≤ tol)
    (scale : Option (F → F → F → F)) (m : Mag) (hm : Even m) (rows : List Row)
    (h : write (single recs bhem blat times cyc cursor) hem tol scale m = .ok (.file rows)) :
    ∃ l : List (ℕ × ℤ), Pairs (single recs bhem blat times cyc cursor) good hem tol m l ∧
      List.Forall₂ (fun p o => Copied m p.1 o ∧ Blank m p.1 o) l rows := by
  refine rows_core (b := single recs bhem blat times cyc cursor) hb h0 htol hm h _ fun gs g rs hgs hg hrs => ?_
  obtain ⟨rs', r1, r2⟩ := group_other (blat := blat) (scale := scale) hb h0 hu hne htol hm hgs hg
  rw [hrs, Except.ok.injEq] at r1
  subst r1
  exact r2

/-- C113 is false with the argument: a northern station and a southern boundary object with `hemisphere=1` give a file with
a row without boundary coordinates, not an error. -/
theorem C113_mismatch_refuted (t : Tod) : ∃ (b : Bound) (m : Mag) (o : Row), b.bnd.hem = -1 ∧
    (do
      let (b', h) ← setup (some b) (fun _ _ _ => .error .ioError) 1 60 m
      write b' h 60 none m) = .ok (.file [o]) ∧ o.lat = some 80 ∧ o.ocbLat = none ∧ o.ocbN = none := by
  obtain ⟨good, hb⟩ := zeroCyc_ok
  have hs : (SignType.sign (80 : ℝ) : ℤ) = 1 := by rw [sign_pos (by norm_num)]; rfl
  obtain ⟨rs, r1, r2⟩ := group_other (blat := -74) (scale := none) (hem := 1) (m := station 80 3 1 2 3) (cursor := 0) (tol := 60) hb
    (by omega) (south_usable t) (by omega) (by norm_num) (station_even _ _ _ _ _) (g := ([0], 0)) (gs := [([0], 0)])
    (by rw [station_cut hs]; exact one_group hb rfl (by norm_num)) (by simp)
  rw [station_cut hs] at r1
  cases r2 with
  | cons a b =>
    cases b
    rename_i o
    have horg : org (station 80 3 1 2 3) 1 0 = 0 := by
      unfold org
      rw [station_good hs]
      rfl
    rw [horg] at a
    refine ⟨single [VortOut.southRec] (-1) (-74) [t] zeroCyc 0, station 80 3 1 2 3, o, rfl, ?_, ?_, a.2.coords.1, a.2.vec.1⟩
    · exact station_write (b := single [VortOut.southRec] (-1) (-74) [t] zeroCyc 0) hb rfl rfl (by norm_num) hs r1
    · have := a.2.lat
      simpa [station] using this.symm

/-! ### C114 -/

/-- One entry for each station of each block. -/
def perStation {α : Type} (bs : List Block) (f : Block → Name → α) : List α := bs.flatMap fun b => b.stations.map (f b)

/-- The columns hold what the station lines say; only the latitude keeps the fill value. -/
structure Listed (float : Conv) (bs : List Block) (m : Mag) : Prop where
  time : m.time = perStation bs fun b _ =>
    Text.midnight b.cur.y b.cur.m b.cur.d + ((b.cur.hh * 60 + b.cur.mi) * 60 + b.cur.s) * 1000000
  id : m.id = perStation bs fun _ l => Smag.text l 0
  sml : m.sml = perStation bs fun b _ => b.index "SML".toList
  smu : m.smu = perStation bs fun b _ => b.index "SMU".toList
  sza : m.sza = perStation bs fun _ l => Smag.clean (Smag.num float l 7)
  mlat : m.mlat = perStation bs fun _ l => Smag.num float l 5
  mlt : m.mlt = perStation bs fun _ l => Smag.clean (Smag.num float l 4)
  bn : m.bn = perStation bs fun _ l => Smag.clean (Smag.num float l 1)
  be : m.be = perStation bs fun _ l => Smag.clean (Smag.num float l 2)
  bz : m.bz = perStation bs fun _ l => Smag.clean (Smag.num float l 3)

theorem rows_pick {α : Type} (bs : List Block) (f : Block → Name → α) (c : α → Val) (g : Val → Option α) (h : ∀ x, g (c x) = some x) :
    (Smag.rows bs fun b l => c (f b l)).filterMap g = perStation bs f := by
  unfold Smag.rows perStation
  induction bs with
  | nil => rfl
  | cons b bs ih =>
    rw [List.flatMap_cons, List.filterMap_append, ih, List.flatMap_cons]
    congr 1
    induction b.stations with
    | nil => rfl
    | cons l ls ih2 => rw [List.map_cons, List.filterMap_cons, h, ih2, List.map_cons]

theorem listed {float : Conv} {bs : List Block} {t : Smag.Table} (h : Smag.Lists float bs t) : Listed float bs (ofTable t) := by
  constructor
  · show stamps _ = _
    rw [h.time]; exact rows_pick _ _ Val.time _ fun _ => rfl
  · show txts _ = _
    rw [h.stid]; exact rows_pick _ _ Val.txt _ fun _ => rfl
  · show ints _ = _
    rw [h.sml]; exact rows_pick _ _ Val.int _ fun _ => rfl
  · show ints _ = _
    rw [h.smu]; exact rows_pick _ _ Val.int _ fun _ => rfl
  · show nums _ = _
    rw [h.sza]; exact rows_pick _ _ Val.num _ fun _ => rfl
  · show nums _ = _
    rw [h.mlat]; exact rows_pick _ _ Val.num _ fun _ => rfl
  · show nums _ = _
    rw [h.mlt]; exact rows_pick _ _ Val.num _ fun _ => rfl
  · show nums _ = _
    rw [h.bn]; exact rows_pick _ _ Val.num _ fun _ => rfl
  · show nums _ = _
    rw [h.be]; exact rows_pick _ _ Val.num _ fun _ => rfl
  · show nums _ = _
    rw [h.bz]; exact rows_pick _ _ Val.num _ fun _ => rfl

theorem listed_even {float : Conv} {bs : List Block} {m : Mag} (h : Listed float bs m) : Even m := by
  have key : ∀ {α β : Type} (f : Block → Name → α) (g : Block → Name → β),
      (perStation bs f).length = (perStation bs g).length := by
    intro α β f g
    simp [perStation, List.length_flatMap]
  exact ⟨by rw [h.id, h.time]; exact key _ _, by rw [h.sml, h.time]; exact key _ _, by rw [h.smu, h.time]; exact key _ _,
    by rw [h.sza, h.time]; exact key _ _, by rw [h.mlat, h.time]; exact key _ _, by rw [h.mlt, h.time]; exact key _ _,
    by rw [h.bn, h.time]; exact key _ _, by rw [h.be, h.time]; exact key _ _, by rw [h.bz, h.time]; exact key _ _⟩

/-- C114: for a well-formed file the table that is worked on has one row for each station line, so that the other claims
apply. -/
theorem C114_from_file (float : Conv) (hd : List Name) (r : Name) (bs : List Block)
    (hh : ∀ l ∈ hd, Files.contains Smag.rule l = false) (hr : Files.contains Smag.rule r = true)
    (h : ∀ b ∈ bs, b.Fine float ∧ b.stations ≠ [] ∧ b.stations.length = b.cur.snum)
    (given : Option Bound) (make : ℤ → ℤ → ℤ → Except PyErr Bound) (hem tol : ℤ) (scale : Option (F → F → F → F)) :
    ∃ m, Listed float bs m ∧ Even m ∧
      smag2ascii float (hd ++ r :: bs.flatMap Block.lines) given make hem tol scale =
        (match setup given make hem tol m with
          | .error e => .error e
          | .ok p => write p.1 p.2 tol scale m) := by
  obtain ⟨t, h1, h2⟩ := Smag.C58_rows_partial hd r bs hh hr h
  refine ⟨ofTable t, listed h2, listed_even (listed h2), ?_⟩
  unfold smag2ascii
  simp only [bind, Except.bind, h1]
  cases setup given make hem tol (ofTable t) <;> rfl

/-- C114: without a boundary object one is loaded for the period of the data and the tolerance on both sides, and for the
hemisphere asked for or found; data that are not of one hemisphere are refused. -/
theorem C114_loaded (make : ℤ → ℤ → ℤ → Except PyErr Bound) (hem tol : ℤ) (m : Mag)
    (hD : m.time.Pairwise (· ≤ ·)) (b : Bound) (h : ℤ) (hs : setup none make hem tol m = .ok (b, h)) :
    (hem ≠ 0 → h = hem) ∧ (hem = 0 → chooseHem m.mlat = .ok h) ∧
    ∃ s e, make s e h = .ok b ∧ ∀ d ∈ m.time, s < d - tol ∧ d + tol < e := by
  unfold setup at hs
  simp only [bind, Except.bind, pure, Except.pure] at hs
  split at hs
  · simp at hs
  rename_i first e1
  split at hs
  · simp at hs
  rename_i last e2
  have hmem : ∀ d ∈ m.time, first ≤ d ∧ d ≤ last := by
    have e1' : m.time[0]? = some first := (pyIdx_nat (i := 0)).1 e1
    obtain ⟨p0, p1⟩ := List.getElem?_eq_some_iff.1 e1'
    unfold pyIdx pyGet at e2
    rw [if_neg (by omega), if_pos (by omega)] at e2
    have e3 : (-1 + (m.time.length : ℤ)).toNat = m.time.length - 1 := by omega
    rw [e3, List.getElem?_eq_getElem (by omega)] at e2
    simp only [Except.ok.injEq] at e2
    intro d hd
    obtain ⟨n, hn, rfl⟩ := List.getElem_of_mem hd
    rw [← p1, ← e2]
    constructor
    · rcases Nat.eq_zero_or_pos n with rfl | h
      · exact le_rfl
      · exact List.pairwise_iff_getElem.1 hD 0 n p0 hn h
    · rcases Nat.lt_or_ge n (m.time.length - 1) with h | h
      · exact List.pairwise_iff_getElem.1 hD n _ hn _ h
      · have : n = m.time.length - 1 := by omega
        simp only [this, le_refl]
  have fin : ∀ h', (make (first - (tol + 1000000)) (last + (tol + 1000000)) h').bind (fun b => .ok (b, h')) =
      Except.ok (b, h) → h' = h ∧ ∃ s e, make s e h = .ok b ∧ ∀ d ∈ m.time, s < d - tol ∧ d + tol < e := by
    intro h' hx
    unfold Except.bind at hx
    split at hx
    · simp at hx
    rename_i b' hb'
    simp only [Except.ok.injEq, Prod.mk.injEq] at hx
    obtain ⟨rfl, rfl⟩ := hx
    exact ⟨rfl, _, _, hb', fun d hd => by have := hmem d hd; omega⟩
  by_cases hz : hem = 0
  · rw [if_pos hz] at hs
    split at hs
    · simp at hs
    rename_i h' e3
    obtain ⟨rfl, f⟩ := fin h' hs
    exact ⟨fun x => absurd hz x, fun _ => e3, f⟩
  · rw [if_neg hz] at hs
    obtain ⟨rfl, f⟩ := fin hem hs
    exact ⟨fun _ => rfl, fun x => absurd x hz, f⟩

/-- C114 is false for a file without the line that ends the header: the loader gives an empty table without an error, but
the driver raises KeyError, which it does not document. -/
theorem C114_no_header_end_refuted (float : Conv) (hd : List Name) (hh : ∀ l ∈ hd, Files.contains Smag.rule l = false)
    (make : ℤ → ℤ → ℤ → Except PyErr Bound) (hem tol : ℤ) (scale : Option (F → F → F → F)) (b : Bound) (hb : b.cyc.times ≠ []) :
    smag2ascii float hd none make hem tol scale = .error .keyError ∧
    smag2ascii float hd (some b) make hem tol scale = .error .keyError := by
  have h := Smag.C58_no_header_end (float := float) hd hh
  have e : b.cyc.records ≠ 0 := by
    unfold Cycler.records
    rw [Ne, Int.natCast_eq_zero, List.length_eq_zero_iff]
    exact hb
  unfold smag2ascii
  simp only [bind, Except.bind, h, if_neg e, and_self]

/-- C114 is false for a file without stations: it raises IndexError if the boundary is to be loaded. -/
theorem C114_no_stations_refuted (float : Conv) (hd : List Name) (r : Name)
    (hh : ∀ l ∈ hd, Files.contains Smag.rule l = false) (hr : Files.contains Smag.rule r = true)
    (make : ℤ → ℤ → ℤ → Except PyErr Bound) (hem tol : ℤ) (scale : Option (F → F → F → F)) :
    smag2ascii float (hd ++ [r]) none make hem tol scale = .error .indexError := by
  obtain ⟨m, h1, h2, h3⟩ := C114_from_file float hd r [] hh hr (by simp) none make hem tol scale
  simp only [List.flatMap_nil] at h3
  rw [h3]
  have : m.time = [] := h1.time
  unfold setup
  rw [this]
  rfl

/-- C114 is false for missing latitudes: the fill value counts as northern.  Southern data with one station of unknown
latitude are refused when the hemisphere is to be found, and among northern data the station is used as if it were at
latitude 999999. -/
theorem C114_fill_latitude_refuted (l : List F) (hl : ∃ x, some x ∈ l ∧ x < 0) (h999 : some 999999 ∈ l) :
    chooseHem l = .error .valueError ∧
    ∀ (m : Mag) (i : ℕ) (lt n e z : ℝ), Station m i 999999 lt n e z → Kept m 1 i := by
  constructor
  · obtain ⟨x, h1, h2⟩ := hl
    exact (VortOut.C106_refused l).1 ⟨x, _, h1, h999, h2, by norm_num⟩
  · exact fun m i lt n e z hs => ⟨_, _, _, _, _, hs, by rw [sign_pos (by norm_num)]; rfl⟩

/-- The hypotheses of `C114_from_file` are met by a file with two blocks. -/
example (given : Option Bound) (make : ℤ → ℤ → ℤ → Except PyErr Bound) (hem tol : ℤ) (scale : Option (F → F → F → F)) :
    ∃ m, Listed Vort.wholes [Smag.exBlock, Smag.exBlock] m ∧ Even m ∧
      smag2ascii Vort.wholes (["File description\n".toList] ++ (Smag.rule ++ "\n".toList) ::
        [Smag.exBlock, Smag.exBlock].flatMap Block.lines) given make hem tol scale =
        (match setup given make hem tol m with
          | .error e => .error e
          | .ok p => write p.1 p.2 tol scale m) := by
  refine C114_from_file Vort.wholes _ _ [Smag.exBlock, Smag.exBlock] ?_ (by decide) ?_ given make hem tol scale
  · intro l hl
    obtain rfl := List.mem_singleton.1 hl
    decide
  · intro b hb
    obtain rfl : b = Smag.exBlock := by simpa using hb
    exact ⟨Smag.exBlock_fine, by decide, rfl⟩

/-- Southern data with one missing latitude. -/
example : chooseHem [some (-75), some 999999] = .error .valueError :=
  (C114_fill_latitude_refuted _ ⟨-75, by simp, by norm_num⟩ (by simp)).1

end Ocb.SmagOut
