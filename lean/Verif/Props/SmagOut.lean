import Verif.Model.SmagOut
import Verif.Props.SupermagDrive
import Verif.Props.Supermag
import Verif.Props.VortOut
import Verif.Props.SetOcb
import Mathlib.Data.Set.Card

/-!
# Properties C110 to C113: the output of the SuperMAG conversion
-/

set_option autoImplicit false

namespace Ocb.SmagOut

open Ocb.Files (Name)
open Ocb.Vort (F Conv)
open Ocb.Smag (Val driveGroups Block)
open Ocb.Coord (Rec normalArr selRec normalPt NormalOut InHem)
open Ocb.Cycle hiding Bnd
open Ocb.Scale (Arr VD Bnd Args construct setOcb SameVec mag3)
open Ocb.Time (Tod)
open Ocb.VortOut (sgn chooseHem pick pick_get pick_range pyIdx_nat mapE_rows mapE_total OneSided)
open Ocb.Vec

/-! ### the selection -/

/-- All columns have one length. -/
structure Even (m : Mag) : Prop where
  id : m.id.length = m.time.length
  sml : m.sml.length = m.time.length
  smu : m.smu.length = m.time.length
  sza : m.sza.length = m.time.length
  mlat : m.mlat.length = m.time.length
  mlt : m.mlt.length = m.time.length
  bn : m.bn.length = m.time.length
  be : m.be.length = m.time.length
  bz : m.bz.length = m.time.length

/-- Row `i` of the table has this location and this vector. -/
structure Station (m : Mag) (i : ℕ) (x l n e z : ℝ) : Prop where
  lat : m.mlat[i]? = some (some x)
  lt : m.mlt[i]? = some (some l)
  n : m.bn[i]? = some (some n)
  e : m.be[i]? = some (some e)
  z : m.bz[i]? = some (some z)

/-- Row `i` of the table is complete and of the hemisphere. -/
def Kept (m : Mag) (hem : ℤ) (i : ℕ) : Prop := ∃ x l n e z, Station m i x l n e z ∧ (SignType.sign x : ℤ) = hem

theorem colAt_isSome {l : List F} {i : ℕ} : (colAt l i).isSome = true ↔ ∃ x, l[i]? = some (some x) := by
  unfold colAt
  rw [Option.isSome_iff_exists]
  constructor
  · rintro ⟨x, hx⟩
    refine ⟨x, ?_⟩
    cases h : l[i]? with
    | none => rw [h] at hx; cases hx
    | some y => rw [h] at hx; rw [← hx]; rfl
  · rintro ⟨x, hx⟩
    exact ⟨x, by rw [hx]; rfl⟩

theorem igood_mem {m : Mag} {hem : ℤ} {i : ℕ} : i ∈ igood m hem ↔ Kept m hem i := by
  unfold igood Kept
  simp only [List.mem_filter, List.mem_range, Bool.and_eq_true, decide_eq_true_eq, colAt_isSome]
  constructor
  · rintro ⟨-, ⟨⟨⟨⟨⟨l, h1⟩, x, h2⟩, e, h3⟩, n, h4⟩, z, h5⟩, h6⟩
    refine ⟨x, l, n, e, z, ⟨h2, h1, h4, h3, h5⟩, ?_⟩
    have : colAt m.mlat i = some x := by unfold colAt; rw [h2]; rfl
    rw [this] at h6
    simpa [sgn] using h6
  · rintro ⟨x, l, n, e, z, ⟨h1, h2, h3, h4, h5⟩, h6⟩
    refine ⟨(List.getElem?_eq_some_iff.1 h2).1, ⟨⟨⟨⟨⟨l, h2⟩, x, h1⟩, e, h4⟩, n, h3⟩, z, h5⟩, ?_⟩
    have : colAt m.mlat i = some x := by unfold colAt; rw [h1]; rfl
    rw [this]
    simp [sgn, h6]

theorem igood_lt {m : Mag} {hem : ℤ} {i : ℕ} (hi : i ∈ igood m hem) : i < m.mlt.length := by
  unfold igood at hi
  exact List.mem_range.1 (List.mem_filter.1 hi).1

theorem igood_sorted (m : Mag) (hem : ℤ) : (igood m hem).Pairwise (· < ·) :=
  List.Pairwise.filter _ List.pairwise_lt_range

theorem igood_all {m : Mag} {hem : ℤ} (e : (igood m hem).length = m.mlt.length) :
    igood m hem = List.range m.mlt.length := by
  unfold igood at e ⊢
  exact List.filter_eq_self.2 (List.length_filter_eq_length_iff.1 (by rw [e, List.length_range]))

/-- The table the loop works on. -/
noncomputable def cut (m : Mag) (hem : ℤ) : Mag :=
  if (igood m hem).length ≠ m.mlt.length then pickMag (igood m hem) m else m

theorem cut_eq {m : Mag} (hm : Even m) (hem : ℤ) : cut m hem = pickMag (igood m hem) m := by
  unfold cut
  split
  · rfl
  · rename_i h
    rw [not_not] at h
    rw [igood_all h]
    have p : ∀ {α : Type} (l : List α), l.length = m.time.length → pick (List.range m.mlt.length) l = l := by
      intro α l hl
      rw [hm.mlt, ← hl, pick_range]
    unfold pickMag
    rw [p _ rfl, p _ hm.id, p _ hm.sml, p _ hm.smu, p _ hm.sza, p _ hm.mlat, p _ hm.mlt, p _ hm.bn, p _ hm.be, p _ hm.bz]

theorem pick_length {α : Type} {idx : List ℕ} {l : List α} (h : ∀ i ∈ idx, i < l.length) : (pick idx l).length = idx.length := by
  induction idx with
  | nil => rfl
  | cons a idx ih =>
    have ha := h a List.mem_cons_self
    have e : pick (a :: idx) l = l[a] :: pick idx l := by simp [pick, List.getElem?_eq_getElem ha]
    rw [e, List.length_cons, List.length_cons, ih fun i hi => h i (List.mem_cons_of_mem _ hi)]

theorem pickMag_even {m : Mag} (hm : Even m) {idx : List ℕ} (h : ∀ i ∈ idx, i < m.time.length) : Even (pickMag idx m) := by
  have p : ∀ {α β : Type} (l : List α), l.length = m.time.length → (pick idx l).length = (pick idx m.time).length := by
    intro α β l hl
    rw [pick_length (by rw [hl]; exact h), pick_length h]
  constructor
  all_goals
    refine p (β := ℕ) _ ?_
    first
      | exact hm.id | exact hm.sml | exact hm.smu | exact hm.sza | exact hm.mlat | exact hm.mlt | exact hm.bn | exact hm.be
      | exact hm.bz

/-- Position `j` of the cut table is position `i` of the table. -/
structure Same (m c : Mag) (j i : ℕ) : Prop where
  time : c.time[j]? = m.time[i]?
  id : c.id[j]? = m.id[i]?
  sml : c.sml[j]? = m.sml[i]?
  smu : c.smu[j]? = m.smu[i]?
  sza : c.sza[j]? = m.sza[i]?
  mlat : c.mlat[j]? = m.mlat[i]?
  mlt : c.mlt[j]? = m.mlt[i]?
  bn : c.bn[j]? = m.bn[i]?
  be : c.be[j]? = m.be[i]?
  bz : c.bz[j]? = m.bz[i]?

theorem igood_time {m : Mag} (hm : Even m) {hem : ℤ} : ∀ i ∈ igood m hem, i < m.time.length := by
  intro i hi
  have := igood_lt hi
  rw [hm.mlt] at this
  exact this

theorem cut_same {m : Mag} (hm : Even m) {hem : ℤ} {j i : ℕ} (h : (igood m hem)[j]? = some i) : Same m (cut m hem) j i := by
  rw [cut_eq hm]
  have p : ∀ {α : Type} (l : List α), l.length = m.time.length → (pick (igood m hem) l)[j]? = l[i]? := by
    intro α l hl
    rw [pick_get (by rw [hl]; exact igood_time hm), h]
    rfl
  exact ⟨p _ rfl, p _ hm.id, p _ hm.sml, p _ hm.smu, p _ hm.sza, p _ hm.mlat, p _ hm.mlt, p _ hm.bn, p _ hm.be, p _ hm.bz⟩

theorem cut_even {m : Mag} (hm : Even m) (hem : ℤ) : Even (cut m hem) := by
  rw [cut_eq hm]
  exact pickMag_even hm (igood_time hm)

theorem cut_time_get {m : Mag} (hm : Even m) (hem : ℤ) (j : ℕ) :
    (cut m hem).time[j]? = (igood m hem)[j]?.bind fun i : ℕ => m.time[i]? := by
  rw [cut_eq hm]
  exact pick_get (igood_time hm) j

theorem cut_order {m : Mag} (hm : Even m) (hem : ℤ) (hD : m.time.Pairwise (· ≤ ·)) : (cut m hem).time.Pairwise (· ≤ ·) := by
  rw [List.pairwise_iff_getElem]
  intro a b ha hb hab
  have ea := cut_time_get hm hem a
  have eb := cut_time_get hm hem b
  rw [List.getElem?_eq_getElem ha] at ea
  rw [List.getElem?_eq_getElem hb] at eb
  obtain ⟨i, hi, hi'⟩ := Option.bind_eq_some_iff.1 ea.symm
  obtain ⟨j, hj, hj'⟩ := Option.bind_eq_some_iff.1 eb.symm
  obtain ⟨i1, i2⟩ := List.getElem?_eq_some_iff.1 hi
  obtain ⟨j1, j2⟩ := List.getElem?_eq_some_iff.1 hj
  obtain ⟨i3, i4⟩ := List.getElem?_eq_some_iff.1 hi'
  obtain ⟨j3, j4⟩ := List.getElem?_eq_some_iff.1 hj'
  have hij := List.pairwise_iff_getElem.1 (igood_sorted m hem) a b i1 j1 hab
  rw [i2, j2] at hij
  rw [← i4, ← j4]
  exact List.pairwise_iff_getElem.1 hD i j i3 j3 hij

/-! ### the vectors of one time -/

/-- The object that the constructor makes of the stations, with its attributes. -/
theorem construct_form {m : Mag} (hm : Even m) (scale : Option (F → F → F → F)) {idx : List ℕ} (k : ℤ)
    (hi : ∀ i ∈ idx, i < m.time.length) :
    ∃ mag, Scale.magArr (.many (pick idx m.bn)) (.many (pick idx m.be)) (.many (pick idx m.bz)) = .ok mag ∧
      construct id (vectArgs m scale idx k) = .ok { Scale.clearData { Scale.initial id (vectArgs m scale idx k) with
        vectMag := mag, vshape := some idx.length } with scaleFunc := scale } := by
  have p : ∀ {α : Type} (l : List α), l.length = m.time.length → (pick idx l).length = idx.length := by
    intro α l hl
    exact pick_length (by rw [hl]; exact hi)
  have e1 := p _ hm.mlat
  have e2 := p _ hm.mlt
  have e3 := p _ hm.bn
  have e4 := p _ hm.be
  have e5 := p _ hm.bz
  have hmag : ∃ mag, Scale.magArr (.many (pick idx m.bn)) (.many (pick idx m.be)) (.many (pick idx m.bz)) = .ok mag := by
    unfold Scale.magArr
    simp only [Arr.zip, e3, e4, e5, bind, Except.bind, if_true, List.length_zip, Nat.min_self]
    exact ⟨_, rfl⟩
  obtain ⟨mag, hmag⟩ := hmag
  have hshape : Scale.testVectorShape { Scale.initial id (vectArgs m scale idx k) with vectMag := mag } =
      ({ Scale.initial id (vectArgs m scale idx k) with vectMag := mag, vshape := some idx.length }, .ok ()) := by
    unfold Scale.testVectorShape
    simp only [Scale.initial, vectArgs, Scale.spread, Arr.shape, e1, e2, e3, e4, e5, List.length_map]
    have hd : Scale.distinct [some idx.length, some idx.length, some idx.length, some idx.length, some idx.length,
        some idx.length] = [some idx.length] := by simp [Scale.distinct]
    rw [hd]
    simp [Scale.maxShape, Scale.shapeLe]
  refine ⟨mag, hmag, ?_⟩
  unfold construct Scale.setVectMag
  simp only [bind, Except.bind, pure, Except.pure]
  have h1 : Scale.magArr (Scale.initial id (vectArgs m scale idx k)).vectN (Scale.initial id (vectArgs m scale idx k)).vectE
      (Scale.initial id (vectArgs m scale idx k)).vectZ = .ok mag := hmag
  rw [h1]
  simp only
  rw [if_pos (by rfl)]
  simp only
  rw [show Scale.testCoords (Scale.initial id (vectArgs m scale idx k)).locCoord
    (Scale.initial id (vectArgs m scale idx k)).vectCoord = .ok () from (Scale.C50_test "magnetic" "magnetic").1.2 (by simp [Scale.Compatible])]
  simp only
  unfold Scale.finish
  rw [hshape]
  simp only
  rfl

/-- The object that the constructor makes of the stations. -/
theorem construct_group {m : Mag} (hm : Even m) (scale : Option (F → F → F → F)) {idx : List ℕ} (k : ℤ)
    (hi : ∀ i ∈ idx, i < m.time.length) :
    ∃ v mag, construct id (vectArgs m scale idx k) = .ok v ∧
      Scale.magArr (.many (pick idx m.bn)) (.many (pick idx m.be)) (.many (pick idx m.bz)) = .ok mag ∧
      v.datInd = .many (idx.map Int.ofNat) ∧ v.ocbInd = .one k ∧
      v.lat = .many (pick idx m.mlat) ∧ v.lt = .many (pick idx m.mlt) ∧ v.vectN = .many (pick idx m.bn) ∧
      v.vectE = .many (pick idx m.be) ∧ v.vectZ = .many (pick idx m.bz) ∧ v.vectMag = mag ∧ v.locCoord = "magnetic" ∧
      v.vectCoord = "magnetic" ∧ v.ocbLat = .one none ∧ v.ocbMlt = .one none ∧ v.rCorr = .one none ∧
      v.scaleFunc = scale ∧ ∀ x ∈ [v.ocbN, v.ocbE, v.ocbZ, v.ocbMag], x = .many (List.replicate idx.length none) := by
  obtain ⟨mag, hmag, hc⟩ := construct_form hm scale k hi
  refine ⟨{ Scale.clearData { Scale.initial id (vectArgs m scale idx k) with vectMag := mag, vshape := some idx.length } with
    scaleFunc := scale }, mag, hc, hmag, rfl, rfl, rfl, rfl, rfl, rfl, rfl, rfl, rfl, rfl, rfl, rfl, rfl, rfl, ?_⟩
  intro x hx
  simp only [List.mem_cons, List.not_mem_nil, or_false] at hx
  rcases hx with rfl | rfl | rfl | rfl <;> rfl

/-- What a step of `set_ocb` leaves alone. -/
structure Leaves (v w : VD) : Prop where
  n : w.vectN = v.vectN
  e : w.vectE = v.vectE
  z : w.vectZ = v.vectZ
  mag : w.vectMag = v.vectMag
  lt : ∀ l, v.lt = .many l → w.lt = .many l
  lat : ∀ l, v.lat = .many l → w.lat = .many l
  ocbLat : w.ocbLat = v.ocbLat
  ocbMlt : w.ocbMlt = v.ocbMlt

theorem Leaves.trans {u v w : VD} (h : Leaves u v) (h' : Leaves v w) : Leaves u w :=
  ⟨h'.n.trans h.n, h'.e.trans h.e, h'.z.trans h.z, h'.mag.trans h.mag, fun l hl => h'.lt l (h.lt l hl),
    fun l hl => h'.lat l (h.lat l hl), h'.ocbLat.trans h.ocbLat, h'.ocbMlt.trans h.ocbMlt⟩

theorem pole_leaves {b : Bnd} {v w : VD} (h : Scale.poleStep b v = .ok w) : Leaves v w := by
  unfold Scale.poleStep at h
  simp only [bind, Except.bind, pure, Except.pure] at h
  repeat' split at h
  all_goals first | contradiction | skip
  cases h
  exact ⟨rfl, rfl, rfl, rfl, fun _ h => h, fun _ h => h, rfl, rfl⟩

theorem angle_leaves {v w : VD} (h : Scale.calcPoleAngle v = .ok w) : Leaves v w := by
  unfold Scale.calcPoleAngle at h
  simp only [bind, Except.bind, pure, Except.pure] at h
  repeat' split at h
  all_goals first | contradiction | skip
  cases h
  refine ⟨rfl, rfl, rfl, rfl, fun l h => ?_, fun l h => ?_, rfl, rfl⟩
  · show Scale.spread _ v.lt = _
    rw [h]
    cases v.datInd <;> rfl
  · show Scale.spread _ v.lat = _
    rw [h]
    cases v.datInd <;> rfl

theorem quad_leaves {v w : VD} (h : Scale.defineQuadrants v = .ok w) : Leaves v w := by
  unfold Scale.defineQuadrants at h
  simp only [bind, Except.bind, pure, Except.pure] at h
  repeat' split at h
  all_goals first | contradiction | skip
  cases h
  exact ⟨rfl, rfl, rfl, rfl, fun _ h => h, fun _ h => h, rfl, rfl⟩

theorem scale_leaves {v w : VD} (h : Scale.scaleVector v = .ok w) : Leaves v w := by
  unfold Scale.scaleVector at h
  simp only [bind, Except.bind, pure, Except.pure] at h
  split at h
  · contradiction
  split at h
  · contradiction
  split at h
  · contradiction
  split at h
  · contradiction
  split at h
  · contradiction
  split at h
  · contradiction
  cases h
  exact ⟨rfl, rfl, rfl, rfl, fun _ h => h, fun _ h => h, rfl, rfl⟩

theorem rotate_leaves {f : Option (F → F → F → F)} {v w : VD} (h : Scale.rotateStep f v = .ok w) : Leaves v w := by
  unfold Scale.rotateStep at h
  simp only [bind, Except.bind, pure, Except.pure] at h
  split at h
  · contradiction
  rename_i v1 h1
  split at h
  · cases h
    exact angle_leaves h1
  · split at h
    · contradiction
    rename_i v2 h2
    refine ((angle_leaves h1).trans (quad_leaves h2)).trans (Leaves.trans ?_ (scale_leaves h))
    unfold Scale.pickScale
    split <;> exact ⟨rfl, rfl, rfl, rfl, fun _ h => h, fun _ h => h, rfl, rfl⟩

/-- `set_ocb` with one record for all vectors and no boundary coordinates yet: these and the latitudes are what
`normal_coord` gives, the local times and vectors are left alone. -/
theorem setOcb_leaves {conv : VD → Arr Tod → ℤ → Except PyErr VD} {b : Bnd} {f : Option (F → F → F → F)} {v w : VD} {k r : ℤ}
    (hv : v.vectCoord = "magnetic") (hi : v.ocbInd = .one k) (hc : Scale.coordsMissing v = true)
    (h : setOcb conv b f v = .ok (w, r)) :
    ∃ lat la ml rc, b.normal k v.lat v.lt v.locCoord v.height = .ok (lat, la, ml, rc) ∧
      Leaves { v with lat := lat, ocbLat := la, ocbMlt := ml, rCorr := rc } w := by
  unfold setOcb Scale.fillCoords at h
  simp only [bind, Except.bind, pure, Except.pure, hv, ne_eq, not_true_eq_false, if_false, hc, if_true, hi] at h
  split at h
  · contradiction
  cases hn : b.normal k v.lat v.lt v.locCoord v.height with
  | error e => rw [hn] at h; contradiction
  | ok o =>
    obtain ⟨lat, la, ml, rc⟩ := o
    rw [hn] at h
    refine ⟨lat, la, ml, rc, rfl, ?_⟩
    simp only [Scale.spread_one] at h
    split at h
    · cases h
      exact ⟨rfl, rfl, rfl, rfl, fun _ h => h, fun _ h => h, rfl, rfl⟩
    · split at h
      · contradiction
      rename_i v1 h1
      split at h
      · contradiction
      rename_i v2 h2
      cases h
      rw [hi, hv]
      exact (pole_leaves h1).trans (rotate_leaves h2)

/-- The columns of a row that are copied from station `i`, or calculated from them. -/
structure Copied (m : Mag) (i : ℕ) (o : Row) : Prop where
  time : m.time[i]? = some o.time
  id : m.id[i]? = some o.id
  sml : m.sml[i]? = some o.sml
  smu : m.smu[i]? = some o.smu
  sza : m.sza[i]? = some o.sza
  lt : m.mlt[i]? = some o.lt
  n : m.bn[i]? = some o.n
  e : m.be[i]? = some o.e
  z : m.bz[i]? = some o.z
  mag : ∀ n e z : ℝ, o.n = some n → o.e = some e → o.z = some z → o.mag = some (√(n ^ 2 + e ^ 2 + z ^ 2))

theorem arrAt_many {α : Type} {l : List α} {a : ℕ} {x : α} : arrAt (.many l) a = .ok x ↔ l[a]? = some x := pyIdx_nat

/-- What the rows of one time are taken from. -/
theorem row_parts {m : Mag} {v : VD} {nst : ℕ} {p : ℕ × ℕ} {o : Row} (h : row m v nst p = .ok o) :
    m.time[p.2]? = some o.time ∧ m.id[p.2]? = some o.id ∧ m.sml[p.2]? = some o.sml ∧ m.smu[p.2]? = some o.smu ∧
    m.sza[p.2]? = some o.sza ∧ arrAt v.lat p.1 = .ok o.lat ∧ arrAt v.lt p.1 = .ok o.lt ∧ arrAt v.vectMag p.1 = .ok o.mag ∧
    arrAt v.vectN p.1 = .ok o.n ∧ arrAt v.vectE p.1 = .ok o.e ∧ arrAt v.vectZ p.1 = .ok o.z ∧
    arrAt v.ocbLat p.1 = .ok o.ocbLat ∧ arrAt v.ocbMlt p.1 = .ok o.ocbMlt ∧ arrAt v.ocbMag p.1 = .ok o.ocbMag ∧
    arrAt v.ocbN p.1 = .ok o.ocbN ∧ arrAt v.ocbE p.1 = .ok o.ocbE ∧ arrAt v.ocbZ p.1 = .ok o.ocbZ ∧ o.nst = nst := by
  unfold row at h
  simp only [bind, Except.bind, pure, Except.pure] at h
  iterate 17
    split at h
    · contradiction
  cases h
  simp only [← pyIdx_nat]
  refine ⟨?_, ?_, ?_, ?_, ?_, ?_, ?_, ?_, ?_, ?_, ?_, ?_, ?_, ?_, ?_, ?_, ?_, trivial⟩ <;> assumption

theorem zip_range {α : Type} {l : List α} {β : Type} {r : List β} {R : ℕ × α → β → Prop}
    (h : List.Forall₂ R ((List.range l.length).zip l) r) :
    r.length = l.length ∧ ∀ (a : ℕ) (i : α), l[a]? = some i → ∃ o, r[a]? = some o ∧ R (a, i) o := by
  rw [List.forall₂_iff_get] at h
  obtain ⟨h1, h2⟩ := h
  have hl : ((List.range l.length).zip l).length = l.length := by simp
  refine ⟨by omega, fun a i hi => ?_⟩
  obtain ⟨ha, rfl⟩ := List.getElem?_eq_some_iff.1 hi
  have hr : a < r.length := by omega
  refine ⟨r[a], List.getElem?_eq_getElem hr, ?_⟩
  have := h2 a (by omega) hr
  simpa using this

theorem mag_get {A B C : List F} {n : ℕ} (h1 : A.length = n) (h2 : B.length = n) (h3 : C.length = n) {mag : Arr F}
    (h : Scale.magArr (.many A) (.many B) (.many C) = .ok mag) (a : ℕ) (x y z w : F) (hx : A[a]? = some x)
    (hy : B[a]? = some y) (hz : C[a]? = some z) (hw : arrAt mag a = .ok w) : w = mag3 ((x, y), z) := by
  unfold Scale.magArr at h
  simp only [Arr.zip, h1, h2, h3, bind, Except.bind, if_true, List.length_zip, Nat.min_self, pure, Except.pure,
    Except.ok.injEq] at h
  subst h
  have hxy : (A.zip B)[a]? = some (x, y) := List.getElem?_zip_eq_some.2 ⟨hx, hy⟩
  have hxyz : ((A.zip B).zip C)[a]? = some ((x, y), z) := List.getElem?_zip_eq_some.2 ⟨hxy, hz⟩
  rw [Arr.map, arrAt_many, List.getElem?_map, hxyz] at hw
  simpa using hw.symm

/-- The rows of one time: one for each station, in order. -/
theorem group_rows {b : Bound} {scale : Option (F → F → F → F)} {m : Mag} (hm : Even m) {idx : List ℕ} {k : ℤ}
    (hi : ∀ i ∈ idx, i < m.time.length) {rs : List Row} (h : group b scale m idx k = .ok rs) :
    List.Forall₂ (fun i o => Copied m i o ∧ o.nst = idx.length) idx rs := by
  obtain ⟨v, mag, c1, c2, c3, c4, c5, c6, c7, c8, c9, c10, c11, c12, c13, c14, c15, c16, cn⟩ := construct_group hm scale k hi
  unfold group at h
  rw [c1] at h
  simp only [bind, Except.bind] at h
  split at h
  · contradiction
  rename_i w hw
  obtain ⟨w, r⟩ := w
  obtain ⟨lat, la, ml, rc, s1, s2⟩ := setOcb_leaves (k := k) c12 c4 (by
    unfold Scale.coordsMissing; rw [c13]; rfl) hw
  have hf := mapE_rows h
  obtain ⟨r1, r2⟩ := zip_range hf
  rw [List.forall₂_iff_get]
  refine ⟨r1.symm, fun a h1 h2 => ?_⟩
  simp only [List.get_eq_getElem]
  obtain ⟨o, o1, o2⟩ := r2 a _ (List.getElem?_eq_getElem h1)
  rw [List.getElem?_eq_getElem h2, Option.some.injEq] at o1
  rw [o1]
  obtain ⟨q1, q2, q3, q4, q5, -, q7, q8, q9, q10, q11, -, -, -, -, -, -, q18⟩ := row_parts o2
  simp only at q1 q2 q3 q4 q5 q7 q8 q9 q10 q11
  have hget : ∀ l : List F, l.length = m.time.length → (pick idx l)[a]? = l[idx[a]]? := by
    intro l hl
    rw [pick_get (by rw [hl]; exact hi), List.getElem?_eq_getElem h1]
    rfl
  rw [s2.lt _ c6, arrAt_many] at q7
  rw [s2.n, show ({ v with lat := lat, ocbLat := la, ocbMlt := ml, rCorr := rc } : VD).vectN = v.vectN from rfl, c7, arrAt_many] at q9
  rw [s2.e, show ({ v with lat := lat, ocbLat := la, ocbMlt := ml, rCorr := rc } : VD).vectE = v.vectE from rfl, c8, arrAt_many] at q10
  rw [s2.z, show ({ v with lat := lat, ocbLat := la, ocbMlt := ml, rCorr := rc } : VD).vectZ = v.vectZ from rfl, c9, arrAt_many] at q11
  rw [s2.mag, show ({ v with lat := lat, ocbLat := la, ocbMlt := ml, rCorr := rc } : VD).vectMag = v.vectMag from rfl, c10] at q8
  have p : ∀ l : List F, l.length = m.time.length → (pick idx l).length = idx.length := fun l hl =>
    pick_length (by rw [hl]; exact hi)
  have hmag := mag_get (p _ hm.bn) (p _ hm.be) (p _ hm.bz) c2 a _ _ _ _ q9 q10 q11 q8
  rw [hget _ hm.mlt] at q7
  rw [hget _ hm.bn] at q9
  rw [hget _ hm.be] at q10
  rw [hget _ hm.bz] at q11
  refine ⟨⟨q1, q2, q3, q4, q5, q7, q9, q10, q11, ?_⟩, q18⟩
  intro n e z hn he hz
  rw [hmag, hn, he, hz]
  rfl

/-! ### the values -/

/-- The value after scaling, if there is a scale function. -/
def scaled (sc : Option (F → F → F → F)) (x u s : F) : F :=
  match sc with
  | none => x
  | some f => f x u s

theorem zip_left {α β : Type} {a : Arr α} {b : Arr β} {c : Arr (α × β)} (h : a.zip b = .ok c) (ha : a.shape ≠ none) :
    c.shape ≠ none := by
  cases a with
  | one x => exact absurd rfl ha
  | many l =>
    cases b with
    | one y => simp only [Arr.zip, Except.ok.injEq] at h; subst h; simp [Arr.shape]
    | many l' =>
      simp only [Arr.zip] at h
      split at h
      · cases h; simp [Arr.shape]
      · split at h
        · cases h; simp [Arr.shape]
        · cases h; simp [Arr.shape]
        · cases h

theorem map_many {α β : Type} {a : Arr α} (f : α → β) (h : a.shape ≠ none) : (a.map f).shape ≠ none := by
  cases a with
  | one x => exact absurd rfl h
  | many l => simp [Arr.map, Arr.shape]

theorem apply_left {f : F → F → F → F} {x u s c : Arr F} (h : Scale.applyScale f x u s = .ok c) (hx : x.shape ≠ none) :
    c.shape ≠ none := by
  unfold Scale.applyScale at h
  simp only [bind, Except.bind, pure, Except.pure] at h
  split at h
  · contradiction
  split at h
  · contradiction
  rename_i y hy
  cases h
  exact map_many _ (zip_left hy hx)

theorem mag_left {x y z c : Arr F} (h : Scale.magArr x y z = .ok c) (hx : x.shape ≠ none) : c.shape ≠ none := by
  unfold Scale.magArr at h
  simp only [bind, Except.bind, pure, Except.pure] at h
  split at h
  · contradiction
  rename_i y hy
  split at h
  · contradiction
  rename_i y' hy'
  cases h
  exact map_many _ (zip_left hy' (zip_left hy hx))

open Ocb.Scale (Reads Pt Holds InRange Located HasQuads rotated)

theorem reads_many {α : Type} {a : Arr α} {m : ℕ} {f : ℕ → α} (h : Reads a m f) (hs : a.shape ≠ none) :
    a = .many ((List.range m).map f) := by
  rcases h with ⟨x, rfl, -⟩ | h
  · exact absurd rfl hs
  · exact h

/-- The object holds, as arrays, the rotated and scaled components of the vectors and their magnitudes. -/
structure Rotated (w : VD) (sc : Option (F → F → F → F)) (c : F) (m : ℕ) (ys : ℕ → Pt) : Prop where
  n : w.ocbN = .many ((List.range m).map fun i => scaled sc (rotated (ys i).vin).1 (some ((ys i).r + (ys i).rc)) c)
  e : w.ocbE = .many ((List.range m).map fun i => scaled sc (rotated (ys i).vin).2.1 (some ((ys i).r + (ys i).rc)) c)
  z : w.ocbZ = .many ((List.range m).map fun i => scaled sc (rotated (ys i).vin).2.2 (some ((ys i).r + (ys i).rc)) c)
  mag : w.ocbMag = .many ((List.range m).map fun i =>
    mag3 ((scaled sc (rotated (ys i).vin).1 (some ((ys i).r + (ys i).rc)) c,
      scaled sc (rotated (ys i).vin).2.1 (some ((ys i).r + (ys i).rc)) c),
      scaled sc (rotated (ys i).vin).2.2 (some ((ys i).r + (ys i).rc)) c))

theorem scaleVector_rot {v : VD} {m : ℕ} {ys : ℕ → Pt} (hm : 0 < m) (h : HasQuads v m ys) (hs : v.vectN.shape ≠ none)
    (hmany : v.lt.shape ≠ none) (c : F) (s : Arr F) (hsc : v.scaledR = some s) (hsr : Reads s m fun _ => c) :
    ∃ w, Scale.scaleVector v = .ok w ∧ Rotated w v.scaleFunc c m ys := by
  obtain ⟨o, o1, o2, o3⟩ := Scale.adjust_rot hm h (.inr (.inl hs))
  have ho : o.shape ≠ none := fun hc => hmany (o3 hc).1
  obtain ⟨u, hu, hur⟩ := h.unscaled
  unfold Scale.scaleVector
  rw [if_neg (by rw [h.lat.notNan hm, h.lt.notNan hm]; simp), if_neg (by rw [h.poleLt.notNan hm]; simp),
    if_neg (by rw [h.ang.notNan hm]; simp), o1, hu, hsc]
  cases hf : v.scaleFunc with
  | none =>
    obtain ⟨mg, d1, d2⟩ := (o2.map (·.1)).mag (o2.map (·.2.1)) (o2.map (·.2.2))
    simp only [bind, Except.bind, pure, Except.pure]
    rw [d1]
    exact ⟨_, rfl, reads_many (o2.map (·.1)) (map_many _ ho), reads_many (o2.map (·.2.1)) (map_many _ ho),
      reads_many (o2.map (·.2.2)) (map_many _ ho), reads_many d2 (mag_left d1 (map_many _ ho))⟩
  | some f =>
    obtain ⟨x1, a1, a2⟩ := (o2.map (·.1)).apply hur hsr f
    obtain ⟨x2, b1, b2⟩ := (o2.map (·.2.1)).apply hur hsr f
    obtain ⟨x3, c1, c2⟩ := (o2.map (·.2.2)).apply hur hsr f
    obtain ⟨mg, d1, d2⟩ := a2.mag b2 c2
    cases o with
    | one q => exact absurd rfl ho
    | many q =>
      simp only [bind, Except.bind, pure, Except.pure]
      rw [a1]
      simp only
      rw [b1]
      simp only
      rw [c1]
      simp only
      rw [d1]
      exact ⟨_, rfl, reads_many a2 (apply_left a1 (map_many _ ho)), reads_many b2 (apply_left b1 (map_many _ ho)),
        reads_many c2 (apply_left c1 (map_many _ ho)), reads_many d2 (mag_left d1 (apply_left a1 (map_many _ ho)))⟩

/-- `set_ocb` on arrays of vectors, with the results in the terms of the model. -/
theorem setOcb_rot {conv : VD → Arr Tod → ℤ → Except PyErr VD} {b : Bnd} {v : VD} {m : ℕ} {ys : ℕ → Pt}
    (hm : 0 < m) (h : Holds v m ys) (hg : ∀ i, i < m → (ys i).Base b) (hr : InRange b m ys) (hl : Located b v m ys)
    (hs : v.vectN.shape ≠ none) (hmany : v.datInd.shape ≠ none) :
    ∃ w rec', setOcb conv b none v = .ok (w, rec') ∧ Rotated w v.scaleFunc (some (90 - |b.blat|)) m ys := by
  obtain ⟨v1, rec', f1, f2, f3, f4, f5, f6, f7⟩ := Scale.fill_ok hm h hl
  obtain ⟨v2, p1, p2, p3, p4, p5, p6, s, ps, pr⟩ := Scale.poleStep_ok hm f2 hg f3.rc
  obtain ⟨v3, r1, r2, r3, r4, r5, r6, r7, r8⟩ := Scale.rotateStep_start hm p2 hg none
  have hf3 : v3.scaleFunc = v.scaleFunc := by rw [r3, p3, f7]
  have hpick : Scale.pickScale none v3 = v3 := by
    unfold Scale.pickScale
    cases hv : v3.scaleFunc with
    | none => cases v3; cases hv; rfl
    | some g => rfl
  obtain ⟨w, s1, s2⟩ := scaleVector_rot hm r2 (by rw [r4.1, p4.1, f6.1]; exact hs)
    (fun hc => hmany (by have := r7 hc; rw [p5, f4] at this; exact this)) (some (90 - |b.blat|)) s (by rw [r6, ps]) pr
  rw [hf3] at s2
  refine ⟨w, rec', ?_, s2⟩
  rw [Scale.after_fill hm h hr conv none f1 f3, p1]
  show ((Scale.rotateStep none v2).map fun w => (w, rec')) = _
  rw [r1, hpick, s1]
  rfl

/-- The number of station `idx[a]` in a column. -/
def val (idx : List ℕ) (l : List F) (a : ℕ) : ℝ := (colAt l (idx.getD a 0)).getD 0

theorem pick_vals {idx : List ℕ} {l : List F} (h : ∀ i ∈ idx, ∃ x, l[i]? = some (some x)) :
    pick idx l = (List.range idx.length).map fun a => some (val idx l a) := by
  have hlt : ∀ i ∈ idx, i < l.length := fun i hi => by
    obtain ⟨x, hx⟩ := h i hi
    exact (List.getElem?_eq_some_iff.1 hx).1
  apply List.ext_getElem?
  intro a
  rw [pick_get hlt]
  by_cases ha : a < idx.length
  · obtain ⟨x, hx⟩ := h idx[a] (List.getElem_mem ha)
    rw [List.getElem?_eq_getElem ha, Option.bind_some, hx]
    simp [ha, val, colAt, List.getD_eq_getElem?_getD, hx]
  · simp [ha]

theorem val_eq {idx : List ℕ} {l : List F} {a i : ℕ} {x : ℝ} (hi : idx[a]? = some i) (h : l[i]? = some (some x)) :
    val idx l a = x := by
  unfold val colAt
  rw [List.getD_eq_getElem?_getD, hi, Option.getD_some, h]
  rfl

/-- The stations of a group as vectors with their circle. -/
noncomputable def pts (m : Mag) (idx : List ℕ) (B : Rec) (k : ℤ) (a : ℕ) : Pt where
  da := val idx m.mlat a
  dl := val idx m.mlt a
  n := val idx m.bn a
  e := val idx m.be a
  z := val idx m.bz a
  rc := B.rf (val idx m.mlt a)
  k := k
  j := k
  r := B.r
  phi := B.phiCent
  rho := B.rCent

/-- `normal_coord` of locations of the right hemisphere. -/
theorem normal_in {B : Rec} (hB : B.Valid) {m : ℕ} (x l : ℕ → ℝ) (h : ∀ a, a < m → InHem B.hem (x a)) :
    ∃ L M : ℕ → ℝ, normalArr (some B) ((List.range m).map fun a => (some (x a), some (l a))) =
        .ok ((List.range m).map fun a => (some (L a), some (M a), some (B.rf (l a))), (List.range m).map fun a => some (x a)) ∧
      ∀ a, a < m → normalPt B (x a) (l a) = .ok (L a, M a, B.rf (l a)) ∧ 0 ≤ M a ∧ M a < 24 := by
  have hw : ∀ a, a < m → Coord.wrongHem B.hem (some (x a)) = false := fun a ha =>
    (Coord.wrongHem_iff B.hem (some (x a))).2 ⟨x a, rfl, h a ha⟩
  have hp : ∀ a, ∃ q : ℝ × ℝ, a < m → normalPt B (x a) (l a) = .ok (q.1, q.2, B.rf (l a)) ∧ 0 ≤ q.2 ∧ q.2 < 24 := by
    intro a
    by_cases ha : a < m
    · obtain ⟨o, -, ho⟩ := Coord.normalEntry_out B hB (some (x a), some (l a))
      rcases ho with ⟨lat, mlt, e, -, L, M, n1, -, n3, n4, -⟩ | ⟨n1, -⟩
      · simp only [Prod.mk.injEq, Option.some.injEq] at e
        obtain ⟨rfl, rfl⟩ := e
        exact ⟨(L, M), fun _ => ⟨n1, n3, n4⟩⟩
      · exact absurd (h a ha) (n1 _ _ rfl)
    · exact ⟨(0, 0), fun hc => absurd hc ha⟩
  choose q hq using hp
  refine ⟨fun a => (q a).1, fun a => (q a).2, ?_, hq⟩
  unfold normalArr
  simp only [List.map_map]
  rw [if_neg]
  · simp only [bind, Except.bind, pure, Except.pure]
    rw [Scale.mapE_range m (fun a => (some (x a), some (l a))) _ (fun a => (some (q a).1, some (q a).2, some (B.rf (l a)))) (by
      intro a ha
      simp only [hw a ha, Bool.false_eq_true, if_false, Coord.normalEntry, (hq a ha).1, bind, Except.bind, pure, Except.pure])]
    simp only [Except.ok.injEq, Prod.mk.injEq, true_and]
    refine List.map_congr_left fun a ha => ?_
    simp only [Function.comp, hw a (List.mem_range.1 ha), Bool.false_eq_true, if_false]
  · rw [Bool.and_eq_true, not_and]
    intro hc
    obtain ⟨y, hy, hy'⟩ := List.any_eq_true.1 hc
    obtain ⟨a, ha, rfl⟩ := List.mem_map.1 hy
    rw [Function.comp, hw a (List.mem_range.1 ha)] at hy'
    cases hy'

/-- What the row of a station owes: its latitude, the boundary coordinates of `normal_coord` at the record, and, off the
meridian of the circle's centre, the components towards the centre of the circle and to the right of that, with the
vertical component, scaled with the corrected radius of the circle and the reference radius. -/
structure Values (B : Rec) (blat : ℝ) (scale : Option (F → F → F → F)) (x l n e z : ℝ) (o : Row) : Prop where
  lat : o.lat = some x
  coords : ∃ L M, normalPt B x l = .ok (L, M, B.rf l) ∧ o.ocbLat = some L ∧ o.ocbMlt = some M ∧ 0 ≤ M ∧ M < 24
  vec : (∀ i : ℤ, B.phiCent / 15 ≠ l + 12 * i) → ¬ (n = 0 ∧ e = 0) →
    o.ocbN = scaled scale (some (towards (place x l) (place (90 - B.rCent) (B.phiCent / 15)) (horiz x l n e)))
      (some (B.r + B.rf l)) (some (90 - |blat|)) ∧
    o.ocbE = scaled scale (some (rightOf (place x l) (place (90 - B.rCent) (B.phiCent / 15)) (horiz x l n e)))
      (some (B.r + B.rf l)) (some (90 - |blat|)) ∧
    o.ocbZ = scaled scale (some z) (some (B.r + B.rf l)) (some (90 - |blat|))
  mag : ∀ a b c : ℝ, o.ocbN = some a → o.ocbE = some b → o.ocbZ = some c → o.ocbMag = some (√(a ^ 2 + b ^ 2 + c ^ 2))

theorem arr_get {α : Type} {m a : ℕ} (f : ℕ → α) (ha : a < m) : arrAt (.many ((List.range m).map f)) a = .ok (f a) := by
  rw [arrAt_many]
  simp [ha]

/-- The rows of one time for an `OCBoundary`. -/
theorem group_values {recs : List Rec} {hem : ℤ} {blat : ℝ} {times : List Tod} {cyc : Cycler} {cursor : ℤ}
    {scale : Option (F → F → F → F)} {m : Mag} (hm : Even m) {idx : List ℕ} {k : ℕ} {B : Rec} (hne : idx ≠ [])
    (hB : recs[k]? = some B) (hv : B.Valid) (hc : 0 ≤ B.rCent ∧ B.rCent < 90) (ht : k < times.length)
    (hi : ∀ i ∈ idx, i < m.time.length ∧ ∃ x l n e z, Station m i x l n e z ∧ InHem B.hem x ∧ |x| < 90) :
    ∃ rs, group (single recs hem blat times cyc cursor) scale m idx k = .ok rs ∧
      List.Forall₂ (fun i o => Copied m i o ∧ o.nst = idx.length ∧
        ∀ x l n e z, Station m i x l n e z → Values B blat scale x l n e z o) idx rs := by
  obtain ⟨v, mag, c1, c2, c3, c4, c5, c6, c7, c8, c9, c10, c11, c12, c13, c14, c15, c16, cn⟩ :=
    construct_group hm scale (idx := idx) k fun i h => (hi i h).1
  have hpos : 0 < idx.length := List.length_pos_iff.2 hne
  have ev : ∀ (l : List F), (∀ i ∈ idx, ∃ x, l[i]? = some (some x)) →
      pick idx l = (List.range idx.length).map fun a => some (val idx l a) := fun l h => pick_vals h
  have x1 := ev m.mlat fun i h => by obtain ⟨-, x, l, n, e, z, hs, -⟩ := hi i h; exact ⟨x, hs.lat⟩
  have x2 := ev m.mlt fun i h => by obtain ⟨-, x, l, n, e, z, hs, -⟩ := hi i h; exact ⟨l, hs.lt⟩
  have x3 := ev m.bn fun i h => by obtain ⟨-, x, l, n, e, z, hs, -⟩ := hi i h; exact ⟨n, hs.n⟩
  have x4 := ev m.be fun i h => by obtain ⟨-, x, l, n, e, z, hs, -⟩ := hi i h; exact ⟨e, hs.e⟩
  have x5 := ev m.bz fun i h => by obtain ⟨-, x, l, n, e, z, hs, -⟩ := hi i h; exact ⟨z, hs.z⟩
  rw [x1] at c5
  rw [x2] at c6
  rw [x3] at c7
  rw [x4] at c8
  rw [x5] at c9
  set ys := pts m idx B k with hys
  set b' : Bnd := { (single recs hem blat times cyc cursor).bnd with recInd := k } with hb'
  have hst : ∀ a, a < idx.length → ∃ i x l n e z, idx[a]? = some i ∧ Station m i x l n e z ∧ InHem B.hem x ∧ |x| < 90 ∧
      val idx m.mlat a = x ∧ val idx m.mlt a = l ∧ val idx m.bn a = n ∧ val idx m.be a = e ∧ val idx m.bz a = z := by
    intro a ha
    obtain ⟨-, x, l, n, e, z, hs, h1, h2⟩ := hi idx[a] (List.getElem_mem ha)
    have hg := List.getElem?_eq_getElem ha
    exact ⟨_, x, l, n, e, z, hg, hs, h1, h2, val_eq hg hs.lat, val_eq hg hs.lt, val_eq hg hs.n, val_eq hg hs.e, val_eq hg hs.z⟩
  have hholds : Holds v idx.length ys := by
    refine ⟨.inr ?_, .inl ⟨(k : ℤ), c4, fun _ _ => rfl⟩, .inr c5, .inr c6, .inr c7, .inr c8, .inr c9, c11, c12⟩
    rw [c3]
    simp [Arr.shape]
  have hidx : ∀ {α : Type} (f : Rec → α), pyIdx (recs.map f) (k : ℤ) = .ok (f B) := by
    intro α f
    rw [pyIdx_nat, List.getElem?_map, hB]
    rfl
  have hbase : ∀ i, i < idx.length → (ys i).Base b' := by
    intro a ha
    obtain ⟨i, x, l, n, e, z, -, -, -, h2, h3, -⟩ := hst a ha
    refine ⟨rfl, hidx Rec.r, hidx Rec.phiCent, hidx Rec.rCent, ?_, hc.1, hc.2⟩
    show |val idx m.mlat a| < 90
    rw [h3]
    exact h2
  have htime : ∃ t, pyIdx times (k : ℤ) = .ok t := ⟨_, pyIdx_nat.2 (List.getElem?_eq_getElem ht)⟩
  have hrange : InRange b' idx.length ys := ⟨htime, fun _ _ => htime⟩
  have hsel : selRec recs (k : ℤ) = some B := by
    unfold selRec
    rw [if_pos (by omega), Int.toNat_natCast]
    exact hB
  obtain ⟨L, M, n1, n2⟩ := normal_in hv (fun a => val idx m.mlat a) (fun a => val idx m.mlt a) (by
    intro a ha
    obtain ⟨i, x, l, n, e, z, -, -, h1, -, h3, -⟩ := hst a ha
    rw [h3]
    exact h1)
  have hnorm : b'.normal k v.lat v.lt "magnetic" v.height = .ok (v.lat, .many ((List.range idx.length).map fun a => some (L a)),
      .many ((List.range idx.length).map fun a => some (M a)),
      .many ((List.range idx.length).map fun a => some (B.rf (val idx m.mlt a)))) := by
    show normalOf recs k v.lat v.lt = _
    rw [c5, c6]
    unfold normalOf
    simp only [hsel, Scale.range_zip, n1, bind, Except.bind, pure, Except.pure, List.map_map]
    rfl
  have hmiss : Scale.coordsMissing v = true := by
    unfold Scale.coordsMissing
    rw [c13]
    rfl
  have hloc : Located b' v idx.length ys :=
    .single k _ _ _ L M ((Scale.gap_iff v).1 hmiss) c4 hnorm (.inr rfl) (.inr rfl) (.inr rfl)
  obtain ⟨w, rec', w1, w2⟩ := setOcb_rot (conv := fun v _ _ => .ok v) hpos hholds hbase hrange hloc
    (by rw [c7]; simp [Arr.shape]) (by rw [c3]; simp [Arr.shape])
  obtain ⟨lat, la, ml, rc, s1, s2⟩ := setOcb_leaves (k := k) c12 c4 hmiss w1
  rw [c11, hnorm, Except.ok.injEq, Prod.mk.injEq, Prod.mk.injEq, Prod.mk.injEq] at s1
  obtain ⟨rfl, rfl, rfl, rfl⟩ := s1
  have wlat := s2.lat _ c5
  have wla := s2.ocbLat
  have wml := s2.ocbMlt
  simp only at wla wml
  have hgroup : group (single recs hem blat times cyc cursor) scale m idx k =
      mapE (row m w idx.length) ((List.range idx.length).zip idx) := by
    unfold group
    rw [c1]
    simp only [bind, Except.bind]
    rw [w1]
  have wmag : ∃ f : ℕ → F, w.vectMag = .many ((List.range idx.length).map f) := by
    rw [s2.mag]
    show ∃ f : ℕ → F, v.vectMag = _
    rw [c10]
    rw [x3, x4, x5] at c2
    have r : ∀ g : ℕ → F, Reads (Arr.many ((List.range idx.length).map g)) idx.length g := fun g => .inr rfl
    obtain ⟨c, d1, d2⟩ := (r fun a => some (val idx m.bn a)).mag (r fun a => some (val idx m.be a)) (r fun a => some (val idx m.bz a))
    rw [c2, Except.ok.injEq] at d1
    subst d1
    exact ⟨_, reads_many d2 (mag_left c2 (by simp [Arr.shape]))⟩
  obtain ⟨fm, wmag⟩ := wmag
  have wlt := s2.lt _ c6
  have wn := s2.n
  have we := s2.e
  have wz := s2.z
  simp only at wn we wz
  rw [c7] at wn
  rw [c8] at we
  rw [c9] at wz
  have hok : ∃ rs, mapE (row m w idx.length) ((List.range idx.length).zip idx) = .ok rs := by
    refine mapE_total fun p hp => ?_
    obtain ⟨n, hn⟩ := List.mem_iff_getElem?.1 hp
    obtain ⟨h1, h2⟩ := List.getElem?_zip_eq_some.1 hn
    obtain ⟨hlt, hp1⟩ := List.getElem?_eq_some_iff.1 h1
    rw [List.getElem_range] at hp1
    rw [List.length_range] at hlt
    rw [← hp1] at h1
    have hmem := List.mem_of_getElem? h2
    have ht := (hi _ hmem).1
    have g : ∀ {α : Type} (l : List α), l.length = m.time.length → ∃ y, pyIdx l (p.2 : ℤ) = .ok y := fun l hl =>
      ⟨_, pyIdx_nat.2 (List.getElem?_eq_getElem (by omega))⟩
    obtain ⟨y1, g1⟩ := g m.time rfl
    obtain ⟨y2, g2⟩ := g m.id hm.id
    obtain ⟨y3, g3⟩ := g m.sml hm.sml
    obtain ⟨y4, g4⟩ := g m.smu hm.smu
    obtain ⟨y5, g5⟩ := g m.sza hm.sza
    unfold row
    simp only [bind, Except.bind, pure, Except.pure, g1, g2, g3, g4, g5, wlat, wlt, wmag, wn, we, wz, wla, wml, w2.n, w2.e,
      w2.z, w2.mag, ← hp1, arr_get _ hlt]
    exact ⟨_, rfl⟩
  obtain ⟨rs, hrs⟩ := hok
  rw [hgroup]
  refine ⟨rs, hrs, ?_⟩
  have hcop := group_rows hm (fun i h => (hi i h).1) (hgroup.trans hrs)
  obtain ⟨r1, r2⟩ := zip_range (mapE_rows hrs)
  rw [List.forall₂_iff_get] at hcop ⊢
  refine ⟨hcop.1, fun a h1 h2 => ⟨(hcop.2 a h1 h2).1, (hcop.2 a h1 h2).2, ?_⟩⟩
  intro x l n e z hs
  simp only [List.get_eq_getElem] at hs ⊢
  have hg := List.getElem?_eq_getElem h1
  obtain ⟨o, o1, o2⟩ := r2 a _ hg
  rw [List.getElem?_eq_getElem h2, Option.some.injEq] at o1
  rw [o1]
  obtain ⟨-, -, -, -, -, q6, -, -, -, -, -, q12, q13, q14, q15, q16, q17, -⟩ := row_parts o2
  rw [wlat, arr_get _ h1, Except.ok.injEq] at q6
  rw [wla, arr_get _ h1, Except.ok.injEq] at q12
  rw [wml, arr_get _ h1, Except.ok.injEq] at q13
  rw [w2.mag, arr_get _ h1, Except.ok.injEq] at q14
  rw [w2.n, arr_get _ h1, Except.ok.injEq] at q15
  rw [w2.e, arr_get _ h1, Except.ok.injEq] at q16
  rw [w2.z, arr_get _ h1, Except.ok.injEq] at q17
  have vx := val_eq hg hs.lat
  have vl := val_eq hg hs.lt
  have vn := val_eq hg hs.n
  have ve := val_eq hg hs.e
  have vz := val_eq hg hs.z
  refine ⟨by rw [← q6, vx], ⟨L a, M a, ?_, q12.symm, q13.symm, (n2 a h1).2⟩, ?_, ?_⟩
  · have := (n2 a h1).1
    rw [vx, vl] at this
    exact this
  · intro hoff hvec
    have hgood : (ys a).Good b' := ⟨hbase a h1, by
      show ∀ i : ℤ, B.phiCent / 15 ≠ val idx m.mlt a + 12 * i
      rw [vl]; exact hoff, by
      show ¬ (val idx m.bn a = 0 ∧ val idx m.be a = 0)
      rw [vn, ve]; exact hvec⟩
    rw [hgood.out] at q15 q16 q17
    have hsc : v.scaleFunc = scale := c16
    rw [hsc] at q15 q16 q17
    refine ⟨?_, ?_, ?_⟩
    · rw [← q15]
      show scaled scale (some (towards (place (val idx m.mlat a) (val idx m.mlt a)) (place (90 - B.rCent) (B.phiCent / 15))
        (horiz (val idx m.mlat a) (val idx m.mlt a) (val idx m.bn a) (val idx m.be a)))) (some (B.r + B.rf (val idx m.mlt a)))
        (some (90 - |blat|)) = _
      rw [vx, vl, vn, ve]
    · rw [← q16]
      show scaled scale (some (rightOf (place (val idx m.mlat a) (val idx m.mlt a)) (place (90 - B.rCent) (B.phiCent / 15))
        (horiz (val idx m.mlat a) (val idx m.mlt a) (val idx m.bn a) (val idx m.be a)))) (some (B.r + B.rf (val idx m.mlt a)))
        (some (90 - |blat|)) = _
      rw [vx, vl, vn, ve]
    · rw [← q17]
      show scaled scale (some (val idx m.bz a)) (some (B.r + B.rf (val idx m.mlt a))) (some (90 - |blat|)) = _
      rw [vl, vz]
  · intro p q r hp hq hr
    rw [← q14]
    rw [← q15] at hp
    rw [← q16] at hq
    rw [← q17] at hr
    rw [hp, hq, hr]
    rfl

/-! ### the rows of the file -/

variable {good : ℤ → Prop}

theorem write_cases {b : Bound} {hem tol : ℤ} {scale : Option (F → F → F → F)} {m : Mag} {rows : List Row}
    (h : write b hem tol scale m = .ok (.file rows)) :
    b.cyc.records ≠ 0 ∧ ∃ gs rss, driveGroups b.cyc (cut m hem).time tol 0 b.cursor = .ok gs ∧
      List.Forall₂ (fun g rs => group b scale (cut m hem) g.1 g.2 = .ok rs) gs rss ∧ rows = rss.flatten := by
  unfold write at h
  split at h
  · cases h
  rename_i h1
  refine ⟨h1, ?_⟩
  simp only at h
  split at h
  · cases h
  rename_i gs hgs
  split at h
  · cases h
  rename_i rss hrss
  cases h
  exact ⟨gs, rss, hgs, mapE_rows hrss, rfl⟩

theorem flat_rows {α β γ δ : Type} {f : α × β → γ × β} {R : γ × β → δ → Prop} :
    ∀ {gs : List (List α × β)} {rss : List (List δ)},
      List.Forall₂ (fun g rs => List.Forall₂ (fun a o => R (f (a, g.2)) o) g.1 rs) gs rss →
      List.Forall₂ R (gs.flatMap fun g => g.1.map fun a => f (a, g.2)) rss.flatten
  | [], _, h => by cases h; exact .nil
  | g :: gs, _, h => by
    cases h with
    | cons h1 h2 =>
      rw [List.flatMap_cons, List.flatten_cons]
      exact List.rel_append (R := R) (List.forall₂_map_left_iff.2 h1) (flat_rows h2)

/-- The position in the table of position `j` of the cut table. -/
noncomputable def org (m : Mag) (hem : ℤ) (j : ℕ) : ℕ := (igood m hem).getD j 0

theorem org_lt {m : Mag} {hem : ℤ} {i j : ℕ} (hj : j < (igood m hem).length) (hij : i < j) : org m hem i < org m hem j := by
  unfold org
  rw [List.getD_eq_getElem?_getD, List.getD_eq_getElem?_getD, List.getElem?_eq_getElem hj,
    List.getElem?_eq_getElem (show i < (igood m hem).length by omega), Option.getD_some, Option.getD_some]
  exact List.pairwise_iff_getElem.1 (igood_sorted m hem) i j (by omega) hj hij

theorem org_inj {m : Mag} {hem : ℤ} {i j : ℕ} (hi : i < (igood m hem).length) (hj : j < (igood m hem).length)
    (h : org m hem i = org m hem j) : i = j := by
  rcases lt_trichotomy i j with h' | h' | h'
  · have := org_lt hj h'
    omega
  · exact h'
  · have := org_lt hi h'
    omega

/-- The pairs of a station and a record behind the rows of the file. -/
structure Pairs (b : Bound) (good : ℤ → Prop) (hem tol : ℤ) (m : Mag) (l : List (ℕ × ℤ)) : Prop where
  once : (l.map Prod.fst).Nodup
  forward : l.Pairwise fun p q => p.2 ≤ q.2
  order : m.time.Pairwise (· ≤ ·) → l.Pairwise fun p q => p.1 < q.1
  fits : ∀ p ∈ l, Kept m hem p.1 ∧ Close b.cyc m.time tol p.1 p.2 ∧ Cand good b.cursor p.2
  together : ∀ p ∈ l, ∀ i : ℕ, Kept m hem i → m.time[i]? = m.time[p.1]? → (i, p.2) ∈ l
  complete : m.time.Pairwise (· ≤ ·) → NondecOn b.cyc.times (Cand good b.cursor) → ∀ (i : ℕ) (k : ℤ), Kept m hem i →
    Cand good b.cursor k → Close b.cyc m.time tol i k → ∃ p ∈ l, p.1 = i
  nearest : m.time.Pairwise (· ≤ ·) → StrictOn b.cyc.times (Cand good b.cursor) → ∀ p ∈ l, ∀ k, Cand good b.cursor k →
    NoFarther b.cyc m.time p.1 p.2 k

theorem time_lt {m : Mag} (hm : Even m) {hem : ℤ} {j : ℕ} {t : ℤ} (h : (cut m hem).time[j]? = some t) :
    ∃ i, (igood m hem)[j]? = some i ∧ m.time[i]? = some t ∧ org m hem j = i ∧ j < (igood m hem).length := by
  rw [cut_time_get hm, Option.bind_eq_some_iff] at h
  obtain ⟨i, h1, h2⟩ := h
  refine ⟨i, h1, h2, ?_, (List.getElem?_eq_some_iff.1 h1).1⟩
  unfold org
  rw [List.getD_eq_getElem?_getD, h1, Option.getD_some]

/-- A group of the loop: all kept stations of one time. -/
theorem group_of {b : Bound} (hb : IsBoundary b.cyc good) (h0 : -1 ≤ b.cursor) {hem tol : ℤ} (htol : 0 ≤ tol) {m : Mag}
    (hm : Even m) {gs : List (List ℕ × ℤ)} (hgs : driveGroups b.cyc (cut m hem).time tol 0 b.cursor = .ok gs)
    {g : List ℕ × ℤ} (hg : g ∈ gs) :
    ∃ t, (∀ i, i ∈ g.1.map (org m hem) ↔ Kept m hem i ∧ m.time[i]? = some t) ∧ (g.1.map (org m hem)).Pairwise (· < ·) ∧
      g.1 ≠ [] ∧ Cand good b.cursor g.2 ∧
      ∀ j ∈ g.1, (igood m hem)[j]? = some (org m hem j) ∧ (cut m hem).time[j]? = some t ∧ m.time[org m hem j]? = some t ∧
        Close b.cyc m.time tol (org m hem j) g.2 := by
  obtain ⟨h1, h2, h3, ⟨t, h4⟩, h5⟩ := (Smag.C59_groups hb _ tol htol b.cursor h0 gs hgs).1 g hg
  have hj : ∀ j ∈ g.1, (igood m hem)[j]? = some (org m hem j) ∧ m.time[org m hem j]? = some t ∧ j < (igood m hem).length := by
    intro j hj
    obtain ⟨i, i1, i2, i3, i4⟩ := time_lt hm ((h4 j).1 hj)
    rw [i3]
    exact ⟨i1, i2, i4⟩
  refine ⟨t, fun i => ?_, ?_, h1, h3, fun j hjg => ⟨(hj j hjg).1, (h4 j).1 hjg, (hj j hjg).2.1, ?_⟩⟩
  · rw [List.mem_map, ← igood_mem]
    constructor
    · rintro ⟨j, hjg, rfl⟩
      exact ⟨List.mem_of_getElem? (hj j hjg).1, (hj j hjg).2.1⟩
    · rintro ⟨hi, ht⟩
      obtain ⟨j, hjj⟩ := List.mem_iff_getElem?.1 hi
      refine ⟨j, (h4 j).2 ?_, ?_⟩
      · rw [cut_time_get hm, hjj]
        exact ht
      · unfold org
        rw [List.getD_eq_getElem?_getD, hjj, Option.getD_some]
  · rw [List.pairwise_map]
    refine h2.imp_of_mem fun {a c} _ hc hac => org_lt (hj c hc).2.2 hac
  · obtain ⟨d, s, d1, d2, d3⟩ := h5 j hjg
    rw [(h4 j).1 hjg, Option.some.injEq] at d1
    subst d1
    exact ⟨_, s, (hj j hjg).2.1, d2, d3⟩

/-- The rows of the file for any account `R` of the rows of one time. -/
theorem rows_core {b : Bound} (hb : IsBoundary b.cyc good) (h0 : -1 ≤ b.cursor) {hem tol : ℤ} (htol : 0 ≤ tol)
    {scale : Option (F → F → F → F)} {m : Mag} (hm : Even m) {rows : List Row}
    (h : write b hem tol scale m = .ok (.file rows)) (R : ℕ × ℤ → Row → Prop)
    (hR : ∀ (gs : List (List ℕ × ℤ)) g rs, driveGroups b.cyc (cut m hem).time tol 0 b.cursor = .ok gs → g ∈ gs →
      group b scale (cut m hem) g.1 g.2 = .ok rs → List.Forall₂ (fun j o => R (org m hem j, g.2) o) g.1 rs) :
    ∃ l : List (ℕ × ℤ), Pairs b good hem tol m l ∧ List.Forall₂ R l rows := by
  obtain ⟨-, gs, rss, hgs, hf, rfl⟩ := write_cases h
  obtain ⟨c1, c2, c3, c4⟩ := Smag.C59_groups hb _ tol htol b.cursor h0 gs hgs
  have hgo := fun g (hg : g ∈ gs) => group_of hb h0 htol hm hgs hg
  have hlt : ∀ j ∈ gs.flatMap Prod.fst, j < (igood m hem).length := by
    intro j hj
    obtain ⟨g, hg, hjg⟩ := List.mem_flatMap.1 hj
    obtain ⟨t, -, -, -, -, h5⟩ := hgo g hg
    exact (List.getElem?_eq_some_iff.1 (h5 j hjg).1).1
  have hfst : (gs.flatMap fun g => g.1.map fun j => (org m hem j, g.2)).map Prod.fst =
      (gs.flatMap Prod.fst).map (org m hem) := by
    rw [List.map_flatMap, List.map_flatMap]
    refine List.flatMap_congr fun g _ => ?_
    rw [List.map_map]
    rfl
  have hmem : ∀ p : ℕ × ℤ, p ∈ (gs.flatMap fun g => g.1.map fun j => (org m hem j, g.2)) →
      ∃ g ∈ gs, ∃ j ∈ g.1, p = (org m hem j, g.2) := by
    intro p hp
    obtain ⟨g, hg, hpg⟩ := List.mem_flatMap.1 hp
    obtain ⟨j, hj, rfl⟩ := List.mem_map.1 hpg
    exact ⟨g, hg, j, hj, rfl⟩
  refine ⟨gs.flatMap fun g => g.1.map fun j => (org m hem j, g.2), ⟨?_, ?_, ?_, ?_, ?_, ?_, ?_⟩, ?_⟩
  · rw [hfst]
    exact List.Nodup.map_on (fun x hx y hy hxy => org_inj (hlt x hx) (hlt y hy) hxy) c2
  · rw [List.pairwise_flatMap]
    refine ⟨fun g _ => ?_, c3.imp fun {g g'} hle x hx y hy => ?_⟩
    · rw [List.pairwise_map]
      exact List.pairwise_of_forall fun _ _ => le_rfl
    · obtain ⟨j, -, rfl⟩ := List.mem_map.1 hx
      obtain ⟨j', -, rfl⟩ := List.mem_map.1 hy
      exact hle
  · intro hD
    have := c4 (cut_order hm hem hD)
    have h2 : ((gs.flatMap fun g => g.1.map fun j => (org m hem j, g.2)).map Prod.fst).Pairwise (· < ·) := by
      rw [hfst, List.pairwise_map]
      exact this.imp_of_mem fun {a c} _ hc hac => org_lt (hlt c hc) hac
    rwa [List.pairwise_map] at h2
  · intro p hp
    obtain ⟨g, hg, j, hj, rfl⟩ := hmem p hp
    obtain ⟨t, -, -, -, h4, h5⟩ := hgo g hg
    obtain ⟨j1, j2, j3, j4⟩ := h5 j hj
    exact ⟨igood_mem.1 (List.mem_of_getElem? j1), j4, h4⟩
  · intro p hp i hi ht
    obtain ⟨g, hg, j, hj, rfl⟩ := hmem p hp
    obtain ⟨t, h1, -, -, -, h5⟩ := hgo g hg
    rw [(h5 j hj).2.2.1] at ht
    obtain ⟨j', hj', rfl⟩ := List.mem_map.1 ((h1 i).2 ⟨hi, ht⟩)
    exact List.mem_flatMap.2 ⟨g, hg, List.mem_map.2 ⟨j', hj', rfl⟩⟩
  · intro hD hN i k hi hk hc
    obtain ⟨j, hj⟩ := List.mem_iff_getElem?.1 (igood_mem.2 hi)
    have hc' : Close b.cyc (cut m hem).time tol j k := by
      unfold Close
      rw [cut_time_get hm, hj]
      exact hc
    obtain ⟨g, hg, hjg⟩ := List.mem_flatMap.1 ((Smag.C59_complete hb _ tol htol b.cursor h0 (cut_order hm hem hD) hN gs hgs j).2
      ⟨k, hk, hc'⟩)
    refine ⟨_, List.mem_flatMap.2 ⟨g, hg, List.mem_map.2 ⟨j, hjg, rfl⟩⟩, ?_⟩
    show org m hem j = i
    unfold org
    rw [List.getD_eq_getElem?_getD, hj, Option.getD_some]
  · intro hD hS p hp k hk d s s' hd hs hs'
    obtain ⟨g, hg, j, hj, rfl⟩ := hmem p hp
    obtain ⟨t, -, -, -, -, h5⟩ := hgo g hg
    obtain ⟨j1, j2, j3, j4⟩ := h5 j hj
    refine Smag.C59_nearest hb _ tol htol b.cursor h0 (cut_order hm hem hD) hS gs hgs g hg j hj k hk d s s' ?_ hs hs'
    simp only at hd
    rw [j2, ← j3]
    exact hd
  · refine flat_rows (f := fun p => (org m hem p.1, p.2)) (R := R) ?_
    rw [List.forall₂_iff_get] at hf ⊢
    exact ⟨hf.1, fun i a1 a2 => hR gs _ _ hgs (List.get_mem _ _) (hf.2 i a1 a2)⟩

theorem Copied.orig {m : Mag} (hm : Even m) {hem : ℤ} {j i : ℕ} {o : Row} (h : Copied (cut m hem) j o)
    (hi : (igood m hem)[j]? = some i) : Copied m i o := by
  obtain ⟨s1, s2, s3, s4, s5, s6, s7, s8, s9, s10⟩ := cut_same hm hi
  obtain ⟨h1, h2, h3, h4, h5, h6, h7, h8, h9, h10⟩ := h
  exact ⟨s1 ▸ h1, s2 ▸ h2, s3 ▸ h3, s4 ▸ h4, s5 ▸ h5, s7 ▸ h6, s8 ▸ h7, s9 ▸ h8, s10 ▸ h9, h10⟩

/-- The number of stations of a group. -/
theorem group_card {m : Mag} {hem t : ℤ} {l : List ℕ} (h : ∀ i, i ∈ l ↔ Kept m hem i ∧ m.time[i]? = some t)
    (hp : l.Pairwise (· < ·)) : l.length = Set.ncard {i : ℕ | Kept m hem i ∧ m.time[i]? = some t} := by
  have e : {i : ℕ | Kept m hem i ∧ m.time[i]? = some t} = (l.toFinset : Set ℕ) := by
    ext i
    simp [h]
  rw [e, Set.ncard_coe_finset, List.toFinset_card_of_nodup (hp.imp fun h => h.ne)]

/-- C110: the rows of the output file belong to pairs of a station and a boundary record, see `Pairs`: each station appears
once and is complete and of the hemisphere, the records never go back, each is usable and within the tolerance, the stations
of one time are written together with one record, and for data and records in time order every such station with a usable
record within the tolerance is there, with one of the nearest.  Time, identifier, indices, local time and vector of the row
are those of the station, the magnitude belongs to the vector, and the number of stations is that of the complete stations of
the hemisphere at that time. -/
theorem C110_rows (b : Bound) (hb : IsBoundary b.cyc good) (h0 : -1 ≤ b.cursor) (hem tol : ℤ) (htol : 0 ≤ tol)
    (scale : Option (F → F → F → F)) (m : Mag) (hm : Even m) (rows : List Row)
    (h : write b hem tol scale m = .ok (.file rows)) :
    ∃ l : List (ℕ × ℤ), Pairs b good hem tol m l ∧
      List.Forall₂ (fun p o => Copied m p.1 o ∧
        o.nst = Set.ncard {i : ℕ | Kept m hem i ∧ m.time[i]? = some o.time}) l rows := by
  refine rows_core hb h0 htol hm h _ fun gs g rs hgs hg hrs => ?_
  obtain ⟨t, h1, h2, h3, h4, h5⟩ := group_of hb h0 htol hm hgs hg
  have hlt : ∀ j ∈ g.1, j < (cut m hem).time.length := fun j hj => (List.getElem?_eq_some_iff.1 (h5 j hj).2.1).1
  have hf := group_rows (cut_even hm hem) hlt hrs
  rw [List.forall₂_iff_get] at hf ⊢
  refine ⟨hf.1, fun a a1 a2 => ?_⟩
  obtain ⟨f1, f2⟩ := hf.2 a a1 a2
  simp only [List.get_eq_getElem] at f1 f2 ⊢
  have hj := h5 _ (List.getElem_mem a1)
  have hc := f1.orig hm hj.1
  refine ⟨hc, ?_⟩
  rw [f2]
  have ht := hc.time
  rw [hj.2.2.1, Option.some.injEq] at ht
  rw [← ht, ← group_card h1 h2, List.length_map]

/-! ### no file, and failures -/

/-- C111: no file is written exactly when the boundary object has no records. -/
theorem C111_no_file (b : Bound) (hem tol : ℤ) (scale : Option (F → F → F → F)) (m : Mag) :
    write b hem tol scale m = .ok .nothing ↔ b.cyc.times = [] := by
  have e : b.cyc.records = 0 ↔ b.cyc.times = [] := by
    unfold Cycler.records
    rw [Int.natCast_eq_zero, List.length_eq_zero_iff]
  rw [← e]
  constructor
  · intro h
    by_contra hc
    unfold write at h
    rw [if_neg hc] at h
    simp only at h
    split at h
    · cases h
    split at h <;> cases h
  · intro h
    unfold write
    rw [if_pos h]

theorem write_run {b : Bound} {hem tol : ℤ} {scale : Option (F → F → F → F)} {m : Mag} (hr : b.cyc.times ≠ []) :
    write b hem tol scale m = (match driveGroups b.cyc (cut m hem).time tol 0 b.cursor with
    | .error e => .error e
    | .ok gs =>
      match mapE (fun g => group b scale (cut m hem) g.1 g.2) gs with
      | .error e => .error e
      | .ok rs => .ok (.file rs.flatten)) := by
  have e : b.cyc.records ≠ 0 := by
    unfold Cycler.records
    rw [Ne, Int.natCast_eq_zero, List.length_eq_zero_iff]
    exact hr
  unfold write
  rw [if_neg e]
  rfl

theorem cut_nil {m : Mag} (hm : Even m) {hem : ℤ} (h : ∀ i, ¬ Kept m hem i) : (cut m hem).time = [] := by
  have : igood m hem = [] := List.eq_nil_iff_forall_not_mem.2 fun i hi => h i (igood_mem.1 hi)
  rw [cut_eq hm, this]
  rfl

/-- C111: with records but without a complete station of the hemisphere the file has no rows. -/
theorem C111_empty_file (b : Bound) (hr : b.cyc.times ≠ []) (hem tol : ℤ) (scale : Option (F → F → F → F)) (m : Mag) (hm : Even m)
    (h : ∀ i, ¬ Kept m hem i) : write b hem tol scale m = .ok (.file []) := by
  have hd : driveGroups b.cyc (cut m hem).time tol 0 b.cursor = .ok [] := by
    rw [cut_nil hm h, driveGroups, if_neg (by simp)]
  rw [write_run hr, hd]
  rfl

open Classical in
/-- The times of the complete stations of a hemisphere. -/
noncomputable def keptTimes (m : Mag) (hem : ℤ) : List ℤ :=
  ((List.range m.time.length).filter fun i => decide (Kept m hem i)).filterMap fun i : ℕ => m.time[i]?

open Classical in
theorem cut_times {m : Mag} (hm : Even m) (hem : ℤ) : (cut m hem).time = keptTimes m hem := by
  rw [cut_eq hm]
  unfold keptTimes
  show pick (igood m hem) m.time = _
  have : igood m hem = (List.range m.time.length).filter fun i => decide (Kept m hem i) := by
    rw [← hm.mlt]
    unfold igood
    refine List.filter_congr fun i hi => ?_
    rw [Bool.eq_iff_iff, decide_eq_true_eq, ← igood_mem]
    unfold igood
    rw [List.mem_filter]
    exact ⟨fun h => ⟨hi, h⟩, fun h => h.2⟩
  rw [this]
  rfl

/-- What is asked of an `OCBoundary` for the file: as many records as times, each valid with the centre of its circle less
than 90 degrees from the pole. -/
structure Usable (recs : List Rec) (times : List Tod) (cyc : Cycler) (bhem : ℤ) : Prop where
  nrecs : recs.length = cyc.times.length
  ntimes : times.length = cyc.times.length
  valid : ∀ B ∈ recs, B.Valid ∧ B.hem = bhem ∧ 0 ≤ B.rCent ∧ B.rCent < 90

theorem close_record {cyc : Cycler} {recs : List Rec} {times : List Tod} {bhem : ℤ} (hu : Usable recs times cyc bhem) {dat : List ℤ}
    {tol k : ℤ} {i : ℕ} (hc : Close cyc dat tol i k) : ∃ n B, k = (n : ℕ) ∧ recs[n]? = some B ∧ n < times.length ∧ B ∈ recs := by
  obtain ⟨_, _, _, ⟨k0, k1⟩, _⟩ := hc
  obtain ⟨n, rfl⟩ := Int.eq_ofNat_of_zero_le k0
  have k2 := (List.getElem?_eq_some_iff.1 k1).1
  rw [Int.toNat_natCast] at k2
  have h1 := hu.nrecs
  have h2 := hu.ntimes
  exact ⟨n, recs[n], rfl, List.getElem?_eq_getElem (by omega), by omega, List.getElem_mem _⟩

theorem cut_station {m : Mag} (hm : Even m) {hem : ℤ} {j i : ℕ} (hi : (igood m hem)[j]? = some i) {x l n e z : ℝ} :
    Station (cut m hem) j x l n e z ↔ Station m i x l n e z := by
  have s := cut_same hm hi
  constructor
  · rintro ⟨h1, h2, h3, h4, h5⟩
    exact ⟨s.mlat ▸ h1, s.mlt ▸ h2, s.bn ▸ h3, s.be ▸ h4, s.bz ▸ h5⟩
  · rintro ⟨h1, h2, h3, h4, h5⟩
    exact ⟨s.mlat ▸ h1, s.mlt ▸ h2, s.bn ▸ h3, s.be ▸ h4, s.bz ▸ h5⟩

/-- One group of the loop for an `OCBoundary` of the hemisphere of the data. -/
theorem group_run {recs : List Rec} {hem : ℤ} {blat : ℝ} {times : List Tod} {cyc : Cycler} {cursor : ℤ}
    (hb : IsBoundary cyc good) (h0 : -1 ≤ cursor) (hu : Usable recs times cyc hem) {tol : ℤ} (htol : 0 ≤ tol)
    {scale : Option (F → F → F → F)} {m : Mag} (hm : Even m) (hlat : ∀ x, some x ∈ m.mlat → |x| < 90)
    {gs : List (List ℕ × ℤ)} (hgs : driveGroups cyc (cut m hem).time tol 0 cursor = .ok gs) {g : List ℕ × ℤ} (hg : g ∈ gs) :
    ∃ rs, group (single recs hem blat times cyc cursor) scale (cut m hem) g.1 g.2 = .ok rs ∧
      List.Forall₂ (fun j o => Copied m (org m hem j) o ∧
        ∃ (k : ℕ) (B : Rec), (k : ℤ) = g.2 ∧ recs[k]? = some B ∧ ∀ x l n e z, Station m (org m hem j) x l n e z →
          Values B blat scale x l n e z o) g.1 rs := by
  obtain ⟨t, h1, h2, h3, h4, h5⟩ := group_of (b := single recs hem blat times cyc cursor) hb h0 htol hm hgs hg
  obtain ⟨j0, hj0⟩ := List.exists_mem_of_ne_nil _ h3
  obtain ⟨k, B, e1, e2, e3, e4⟩ := close_record hu (h5 j0 hj0).2.2.2
  obtain ⟨v1, v2, v3, v4⟩ := hu.valid B e4
  obtain ⟨rs, r1, r2⟩ := group_values (hem := hem) (blat := blat) (times := times) (cyc := cyc) (cursor := cursor) (scale := scale)
    (cut_even hm hem) h3 e2 v1 ⟨v3, v4⟩ e3 (by
      intro j hj
      obtain ⟨a1, a2, a3, a4⟩ := h5 j hj
      refine ⟨(List.getElem?_eq_some_iff.1 a2).1, ?_⟩
      obtain ⟨x, l, n, e, z, s1, s2⟩ := igood_mem.1 (List.mem_of_getElem? a1)
      refine ⟨x, l, n, e, z, (cut_station hm a1).2 s1, ?_, hlat x (List.mem_of_getElem? s1.lat)⟩
      unfold InHem
      rw [v2, ← s2]
      simp)
  refine ⟨rs, by rw [e1]; exact r1, ?_⟩
  rw [List.forall₂_iff_get] at r2 ⊢
  refine ⟨r2.1, fun a a1 a2 => ?_⟩
  obtain ⟨f1, -, f2⟩ := r2.2 a a1 a2
  simp only [List.get_eq_getElem] at f1 f2 ⊢
  have hj := h5 _ (List.getElem_mem a1)
  exact ⟨f1.orig hm hj.1, k, B, e1.symm, e2, fun x l n e z hs => f2 x l n e z ((cut_station hm hj.1).2 hs)⟩

/-- C111: for stations and records in time order and an `OCBoundary` of the hemisphere, with all stations off the pole, the
call fails exactly when none of the complete stations of the hemisphere overlaps with the records in the sense of C60, and
then with TypeError. -/
theorem C111_fails_iff (recs : List Rec) (hem : ℤ) (blat : ℝ) (times : List Tod) (cyc : Cycler) (cursor : ℤ)
    (hb : IsBoundary cyc good) (h0 : -1 ≤ cursor) (hu : Usable recs times cyc hem) (tol : ℤ) (htol : 0 ≤ tol)
    (scale : Option (F → F → F → F)) (m : Mag) (hm : Even m) (hlat : ∀ x, some x ∈ m.mlat → |x| < 90)
    (hD : m.time.Pairwise (· ≤ ·)) (hN : NondecOn cyc.times (Cand good cursor)) (e : PyErr) :
    write (single recs hem blat times cyc cursor) hem tol scale m = .error e ↔
      cyc.times ≠ [] ∧ e = .typeError ∧ NoOverlap cyc good cursor (keptTimes m hem) tol := by
  by_cases hr : cyc.times = []
  · rw [(C111_no_file (single recs hem blat times cyc cursor) hem tol scale m).2 hr]
    simp [hr]
  have hdr := Smag.C59_error_iff hb (cut m hem).time tol htol cursor h0 (cut_order hm hem hD) hN e
  rw [write_run hr, ← cut_times hm hem]
  change (match driveGroups cyc (cut m hem).time tol 0 cursor with | .error _ => _ | .ok _ => _) = _ ↔ _
  cases hd : driveGroups cyc (cut m hem).time tol 0 cursor with
  | error e' =>
    rw [hd] at hdr
    simp only [Except.error.injEq] at hdr ⊢
    rw [hdr]
    exact ⟨fun h => ⟨hr, h⟩, fun h => h.2⟩
  | ok gs =>
    rw [hd] at hdr
    simp only [reduceCtorEq, false_iff] at hdr
    obtain ⟨rs, hrs⟩ := mapE_total (f := fun g : List ℕ × ℤ => group (single recs hem blat times cyc cursor) scale (cut m hem) g.1 g.2)
      (l := gs) (fun g hg => by
        obtain ⟨rs, h, -⟩ := group_run (blat := blat) (scale := scale) hb h0 hu htol hm hlat hd hg
        exact ⟨rs, h⟩)
    simp only [hrs, reduceCtorEq, false_iff]
    exact fun h => hdr h.2

/-! ### the values -/

theorem values_rows {recs : List Rec} {hem : ℤ} {blat : ℝ} {times : List Tod} {cyc : Cycler} {cursor : ℤ}
    (hb : IsBoundary cyc good) (h0 : -1 ≤ cursor) (hu : Usable recs times cyc hem) {tol : ℤ} (htol : 0 ≤ tol)
    {scale : Option (F → F → F → F)} {m : Mag} (hm : Even m) (hlat : ∀ x, some x ∈ m.mlat → |x| < 90) {rows : List Row}
    (h : write (single recs hem blat times cyc cursor) hem tol scale m = .ok (.file rows)) :
    ∃ l : List (ℕ × ℤ), Pairs (single recs hem blat times cyc cursor) good hem tol m l ∧
      List.Forall₂ (fun p o => Copied m p.1 o ∧
        ∃ (k : ℕ) (B : Rec), (k : ℤ) = p.2 ∧ recs[k]? = some B ∧ ∀ x l n e z, Station m p.1 x l n e z →
          Values B blat scale x l n e z o) l rows := by
  refine rows_core (b := single recs hem blat times cyc cursor) hb h0 htol hm h _ fun gs g rs hgs hg hrs => ?_
  obtain ⟨rs', r1, r2⟩ := group_run (blat := blat) (scale := scale) hb h0 hu htol hm hlat hgs hg
  rw [hrs, Except.ok.injEq] at r1
  subst r1
  exact r2

end Ocb.SmagOut
