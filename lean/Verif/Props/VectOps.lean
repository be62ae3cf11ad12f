import Verif.Model.VectOps
import Verif.Props.VectRepr
import Verif.Props.VectHist
import Verif.Props.VectMagMore

/-!
# Magnitudes of vectors after any program (C165)
-/

set_option autoImplicit false

namespace Ocb.Scale

open Ocb.Time Ocb.Coord Ocb.Vec

/-! ## What is claimed -/

/-- Entry `i` of the array is `y`; a single value is every entry. -/
def EntryIs {α : Type*} (x : Arr α) (i : ℕ) (y : α) : Prop :=
  match x with
  | .one a => a = y
  | .many l => l[i]? = some y

/-- `m` is the length of the vector with the components `n`, `e`, `z`, NaN if one of them is. -/
def LengthOf (n e z m : F) : Prop :=
  (∀ a b c : ℝ, n = some a → e = some b → z = some c → ∃ r, m = some r ∧ 0 ≤ r ∧ r ^ 2 = a ^ 2 + b ^ 2 + c ^ 2) ∧
  (n = none ∨ e = none ∨ z = none → m = none)

/-- The arrays of components have one shape, and every vector has its magnitude. -/
def MagsRight (n e z m : Arr F) : Prop :=
  n.shape = e.shape ∧ e.shape = z.shape ∧
  ∀ (i : ℕ) (a b c : F), EntryIs n i a → EntryIs e i b → EntryIs z i c → ∃ r, EntryIs m i r ∧ LengthOf a b c r

/-! ## Arrays -/

theorem length_mag3 (n e z : F) : LengthOf n e z (mag3 ((n, e), z)) := by
  refine ⟨?_, ?_⟩
  · rintro a b c rfl rfl rfl
    exact ⟨_, rfl, Real.sqrt_nonneg _, Real.sq_sqrt (by positivity)⟩
  · rintro (rfl | rfl | rfl)
    · rfl
    · cases n <;> rfl
    · cases n <;> cases e <;> rfl

/-- The shape of a broadcast. -/
def joined : Shape → Shape → Shape
  | none, s => s
  | s, none => s
  | some a, some b => if a = b then some a else if a = 1 then some b else some a

theorem zip_joined {α β : Type*} {x : Arr α} {y : Arr β} {z : Arr (α × β)} (h : x.zip y = .ok z) :
    z.shape = joined x.shape y.shape := by
  cases x with
  | one a =>
    cases y with
    | one b => cases h; rfl
    | many m => cases h; simp [Arr.shape, joined]
  | many l =>
    cases y with
    | one b => cases h; simp [Arr.shape, joined]
    | many m =>
      simp only [Arr.zip] at h
      split_ifs at h with hl
      · cases h; simp [Arr.shape, joined, hl]
      · split at h
        · cases h
          simp only [List.length_cons, List.length_nil, zero_add] at hl
          simp [Arr.shape, joined, hl]
        · cases h
          rename_i h1
          have : l.length ≠ 1 := by
            intro hc
            obtain ⟨a, rfl⟩ := List.length_eq_one_iff.1 hc
            exact h1 a rfl
          simp only [List.length_cons, List.length_nil, zero_add] at hl
          simp [Arr.shape, joined, hl]
        · cases h

theorem applyScale_joined {f : F → F → F → F} {x u s r : Arr F} (h : applyScale f x u s = .ok r) :
    r.shape = joined x.shape (joined u.shape s.shape) := by
  unfold applyScale at h
  simp only [bind, Except.bind, pure, Except.pure] at h
  split at h
  · cases h
  · rename_i us hus
    split at h
    · cases h
    · rename_i xus hx
      cases h
      rw [map_shape, zip_joined hx, zip_joined hus]

theorem fillOne_shape {x r : Arr F} (h : fillOne x = .ok r) : r.shape = none := by
  unfold fillOne at h
  split at h <;> cases h <;> rfl

theorem magArr_full (s : Shape) (n e z : F) :
    magArr (.full s n) (.full s e) (.full s z) = .ok (.full s (mag3 ((n, e), z))) := by
  cases s with
  | none => rfl
  | some k =>
    simp only [Arr.full]
    rw [magArr_many _ _ _ (by simp) (by simp)]
    simp

/-- The calculated magnitudes are right. -/
theorem mags_of {n e z m : Arr F} (h1 : n.shape = e.shape) (h2 : e.shape = z.shape) (h : magArr n e z = .ok m) :
    MagsRight n e z m ∧ m.shape = n.shape := by
  cases n with
  | one a =>
    cases e with
    | many l => simp [Arr.shape] at h1
    | one b =>
      cases z with
      | many l => simp [Arr.shape] at h2
      | one c =>
        cases h
        refine ⟨⟨rfl, rfl, ?_⟩, rfl⟩
        rintro i _ _ _ rfl rfl rfl
        exact ⟨_, rfl, length_mag3 _ _ _⟩
  | many n =>
    cases e with
    | one a => simp [Arr.shape] at h1
    | many e =>
      cases z with
      | one a => simp [Arr.shape] at h2
      | many z =>
        have k1 : e.length = n.length := (by simpa [Arr.shape] using h1 : n.length = e.length).symm
        have k2 : z.length = n.length := by rw [← k1]; exact (by simpa [Arr.shape] using h2 : e.length = z.length).symm
        rw [magArr_many _ _ _ k1 k2] at h
        cases h
        refine ⟨⟨h1, h2, ?_⟩, by simp [Arr.shape, k1, k2]⟩
        intro i a b c ha hb hc
        exact ⟨_, magArr_get _ _ _ i a b c ha hb hc, length_mag3 _ _ _⟩

theorem magArr_same {n e z : Arr F} (h1 : n.shape = e.shape) (h2 : e.shape = z.shape) : ∃ m, magArr n e z = .ok m := by
  obtain ⟨ne, hne, sne⟩ := zip_same n e h1
  obtain ⟨nez, hnez, -⟩ := zip_same ne z (by rw [sne, h1, h2])
  refine ⟨nez.map mag3, ?_⟩
  unfold magArr
  rw [hne]
  simp only [bind, Except.bind, pure, Except.pure]
  rw [hnez]

/-- The magnitudes of the vectors of the object are right. -/
def Mags (v : VD) : Prop := MagsRight v.vectN v.vectE v.vectZ v.vectMag

/-- Only the vector and its magnitude matter. -/
theorem Mags.congr {v w : VD} (h : Mags v) (h1 : w.vectN = v.vectN) (h2 : w.vectE = v.vectE) (h3 : w.vectZ = v.vectZ)
    (h4 : w.vectMag = v.vectMag) : Mags w := by
  unfold Mags
  rw [h1, h2, h3, h4]
  exact h

/-- Spreading single components over the indices. -/
theorem Mags.grow {v : VD} (h : Mags v) (s : Shape) :
    Mags { v with
      vectN := (match v.vectN with | .one a => .full s a | x => x)
      vectE := (match v.vectE with | .one a => .full s a | x => x)
      vectZ := (match v.vectZ with | .one a => .full s a | x => x) } := by
  obtain ⟨d, o, la, lt, he, n, e, z, m0⟩ := v
  obtain ⟨h1, h2, hv⟩ := h
  simp only at h1 h2 hv
  cases n with
  | one a =>
    cases e with
    | many l => simp [Arr.shape] at h1
    | one b =>
      cases z with
      | many l => simp [Arr.shape] at h2
      | one c =>
        have full : ∀ (x y : F) (i : ℕ), EntryIs (Arr.full s x) i y → x = y := by
          intro x y i hi
          cases s with
          | none => exact hi
          | some k =>
            have := List.mem_of_getElem? (show (List.replicate k x)[i]? = some y from hi)
            exact (List.eq_of_mem_replicate this).symm
        refine ⟨by cases s <;> simp [Arr.full, Arr.shape], by cases s <;> simp [Arr.full, Arr.shape], ?_⟩
        intro i a' b' c' ha hb hc
        obtain rfl := full _ _ _ ha
        obtain rfl := full _ _ _ hb
        obtain rfl := full _ _ _ hc
        exact hv i a b c rfl rfl rfl
  | many n =>
    cases e with
    | one a => simp [Arr.shape] at h1
    | many e =>
      cases z with
      | one a => simp [Arr.shape] at h2
      | many z => exact ⟨h1, h2, hv⟩

theorem Mags.vectorShape {v : VD} (h : Mags v) : Mags (testVectorShape v).1 := by
  unfold testVectorShape
  simp only
  split_ifs
  · exact h
  · exact h
  · exact (Mags.grow h _)
  · exact h

theorem Mags.boundShape {v : VD} (h : Mags v) : Mags (testBoundShape v).1 := by
  obtain ⟨s, hs⟩ := testBoundShape_form v
  rw [hs]
  exact h

theorem Mags.nan {v w : VD} (h1 : v.vectN.shape = v.vectE.shape) (h2 : v.vectE.shape = v.vectZ.shape)
    (h : setVectMag v (.one none) = .ok w) : Mags w := by
  obtain ⟨s, m, hs, hm, rfl⟩ := (setVectMag_iff _ _ _).1 h
  rcases hm with ⟨-, rfl⟩ | ⟨hc, -⟩
  · exact (mags_of h1 h2 hs).1
  · cases hc

theorem Mags.datInd {v : VD} (h : Mags v) (i : Arr ℤ) : Mags (setDatInd v i).1 := by
  have h0 : Mags { v with datInd := i } := h
  have h1 := h0.vectorShape
  unfold setDatInd
  simp only
  rcases hq : testVectorShape { v with datInd := i } with ⟨w, e | u⟩
  · rw [hq] at h1; exact h1
  · rw [hq] at h1
    have h2 := Mags.boundShape h1
    simp only at h2 ⊢
    rcases hq' : testBoundShape w with ⟨w', e | u⟩
    · rw [hq'] at h2; exact h2
    · rw [hq'] at h2
      have h3 : Mags (clearData w') := h2
      simp only
      split
      · rename_i x hx
        exact Mags.nan h3.1 h3.2.1 hx
      · exact h3

theorem Mags.ocbInd {v : VD} (h : Mags v) (i : Arr ℤ) : Mags (setOcbInd v i).1 := by
  have h1 := Mags.boundShape (show Mags { v with ocbInd := i } from h)
  unfold setOcbInd
  split
  · rename_i w hw; rw [hw] at h1; exact h1
  · rename_i w hw; rw [hw] at h1; exact h1
  · rename_i w hw
    rw [hw] at h1
    have h2 := Mags.boundShape (show Mags (unsetBound w) from h1)
    split
    · rename_i x hx; rw [hx] at h2; exact h2
    · rename_i x e hx; rw [hx] at h2; exact h2

theorem bothPlaces_vector {lower : String → String} {A : Aacgm} {v u : VD} {ts : Arr Tod} {p : Places}
    (hb : bothPlaces lower A v ts = .ok (u, p)) :
    u = { v with lat := u.lat, lt := u.lt, height := u.height, locCoord := u.locCoord } := by
  unfold bothPlaces at hb
  split at hb
  · cases hup : updateLoc lower A v ts v.vectCoord with
    | error e => rw [hup] at hb; cases hb
    | ok x =>
      rw [hup] at hb
      have hx := (updateLoc_rest hup).1
      simp only [bind, Except.bind, pure, Except.pure, Except.ok.injEq, Prod.mk.injEq] at hb
      obtain ⟨rfl, rfl⟩ := hb
      rw [hx]
  · cases hup : updateLoc lower A v ts "magnetic" with
    | error e => rw [hup] at hb; cases hb
    | ok x =>
      rw [hup] at hb
      have hx := (updateLoc_rest hup).1
      simp only [bind, Except.bind, pure, Except.pure, Except.ok.injEq, Prod.mk.injEq] at hb
      obtain ⟨rfl, rfl⟩ := hb
      exact hx

theorem Mags.toMag {lower : String → String} {A : Aacgm} {v w : VD} {ts : Arr Tod} {hem : ℤ} (hv : Mags v)
    (h : updateVect lower A v ts hem = .ok w) : Mags w := by
  unfold updateVect at h
  split_ifs at h with hc
  · cases hb : bothPlaces lower A v ts with
    | error e => rw [hb] at h; cases h
    | ok up =>
      obtain ⟨u, p⟩ := up
      have hu := bothPlaces_vector hb
      rw [hb] at h
      simp only [bind, Except.bind] at h
      split at h
      · cases h
        exact hv.congr (by rw [hu]) (by rw [hu]) (by rw [hu]) (by rw [hu])
      · split at h
        · cases h
        · split at h
          · cases h
          · exact Mags.nan (by simp only [map_shape]) (by simp only [map_shape]) h
  · cases h; exact hv

/-- `set_ocb` in all its ways: the conversion to magnetic coordinates, then only places and results. -/
theorem setOcb_vector {conv : VD → Arr Tod → ℤ → Except PyErr VD} {b : Bnd} {f : Option (F → F → F → F)} {v w : VD} {c : ℤ}
    (h : setOcb conv b f v = .ok (w, c)) :
    ∃ u, (u = v ∧ v.vectCoord = "magnetic" ∨ ∃ t, conv v t b.hem = .ok u) ∧
      w.vectN = u.vectN ∧ w.vectE = u.vectE ∧ w.vectZ = u.vectZ ∧ w.vectMag = u.vectMag := by
  unfold setOcb at h
  simp only [bind, Except.bind, pure, Except.pure] at h
  split at h
  · cases h
  · rename_i t ht
    split at h
    · cases h
    · rename_i u hu
      refine ⟨u, ?_, ?_⟩
      · split_ifs at hu with hc
        · exact .inr ⟨t, hu⟩
        · cases hu; exact .inl ⟨rfl, by simpa using hc⟩
      · split at h
        · cases h
        · rename_i x hx
          obtain ⟨v1, c1⟩ := x
          obtain ⟨la, a, m, r, rfl⟩ := fillCoords_only hx
          simp only at h
          split_ifs at h with hc
          · cases h; exact ⟨rfl, rfl, rfl, rfl⟩
          · split at h
            · cases h
            · rename_i v2 h2
              split at h
              · cases h
              · rename_i v3 h3
                cases h
                obtain ⟨a1, a2, a3, a4, a5, -, -, hr⟩ := steps_inv h2 h3
                rcases hr with ⟨-, rfl⟩ | ⟨h5, a6, a7, n, e, z, m, g, -, -, -, rfl⟩ <;> exact ⟨rfl, rfl, rfl, rfl⟩

/-! ## C165 -/

/-- A statement that changes neither the components nor the magnitude by hand; asking for the calculated magnitude is
allowed. -/
def KeepsVector : VCall → Prop
  | .components _ _ _ => False
  | .magnitude m => m = .one none
  | _ => True

theorem Mags.after {lower : String → String} {A : Aacgm} {c : VCall} {v w : VD} (hc : KeepsVector c)
    (h : After lower A c v w) (hv : Mags v) : Mags w := by
  cases c with
  | datInd i => rw [show w = _ from h]; exact hv.datInd i
  | ocbInd i => rw [show w = _ from h]; exact hv.ocbInd i
  | lat x => rw [show w = _ from h]; exact hv
  | lt x => rw [show w = _ from h]; exact hv
  | height x => rw [show w = _ from h]; exact hv
  | ocbLat x => rw [show w = _ from h]; exact hv
  | ocbMlt x => rw [show w = _ from h]; exact hv
  | rCorr x => rw [show w = _ from h]; exact hv
  | components n e z => exact hc.elim
  | magnitude m =>
    rw [show m = _ from hc] at h
    exact Mags.nan hv.1 hv.2.1 h
  | scaleFunc f => rw [show w = _ from h]; exact hv
  | clear => rw [show w = _ from h]; exact hv
  | setOcb b f =>
    obtain ⟨r, h⟩ := h
    obtain ⟨u, hu, e1, e2, e3, e4⟩ := setOcb_vector h
    refine Mags.congr ?_ e1 e2 e3 e4
    rcases hu with ⟨rfl, -⟩ | ⟨t, ht⟩
    · exact hv
    · exact hv.toMag ht
  | poleAngle =>
    rw [calcPoleAngle_place h]
    exact hv
  | quadrants =>
    have := defineQuadrants_local h rfl rfl rfl rfl rfl rfl rfl
    rw [show defineQuadrants v = _ from h] at this
    rw [Except.ok.inj this]
    exact hv
  | scale =>
    have := scaleVector_local h rfl rfl rfl rfl rfl rfl rfl rfl rfl rfl rfl rfl rfl
    rw [show scaleVector v = _ from h] at this
    rw [Except.ok.inj this]
    exact hv
  | toCoord ts coord =>
    have := (updateLoc_rest h).1
    exact hv.congr (by rw [this]) (by rw [this]) (by rw [this]) (by rw [this])
  | toMag ts hem => exact hv.toMag h

theorem Mags.runs {lower : String → String} {A : Aacgm} {v w : VD} (h : Runs lower A KeepsVector v w) (hv : Mags v) :
    Mags w := by
  induction h with
  | start => exact hv
  | next c hc _ hw ih => exact ih.after hc hw

theorem entry_zip {α β : Type*} {x : Arr α} {y : Arr β} {z : Arr (α × β)} {k i : ℕ} {a : α} {b : β}
    (h : x.zip y = .ok z) (hx : x.shape = none ∨ x.shape = some k) (hy : y.shape = none ∨ y.shape = some k)
    (ha : EntryIs x i a) (hb : EntryIs y i b) : EntryIs z i (a, b) ∧ (z.shape = none ∨ z.shape = some k) := by
  cases x with
  | one a' =>
    cases y with
    | one b' => cases h; cases ha; cases hb; exact ⟨rfl, .inl rfl⟩
    | many m =>
      cases h; cases ha
      replace hb : m[i]? = some b := hb
      exact ⟨by simp [EntryIs, hb], by simpa [Arr.shape] using hy⟩
  | many l =>
    replace ha : l[i]? = some a := ha
    cases y with
    | one b' => cases h; cases hb; exact ⟨by simp [EntryIs, ha], by simpa [Arr.shape] using hx⟩
    | many m =>
      have e1 : l.length = k := by simpa [Arr.shape] using hx
      have e2 : m.length = k := by simpa [Arr.shape] using hy
      rw [zip_many l m (by omega)] at h
      cases h
      exact ⟨List.getElem?_zip_eq_some.2 ⟨ha, hb⟩, .inr (by simp [Arr.shape, e1, e2])⟩

theorem entry_spread {α : Type*} {d : Arr ℤ} {x : Arr α} {i : ℕ} {y : α} (h : EntryIs (spread d x) i y) :
    EntryIs x i y := by
  cases x with
  | many l => cases d <;> exact h
  | one a =>
    cases d with
    | one k => exact h
    | many l =>
      have := List.mem_of_getElem? (show (List.replicate l.length a)[i]? = some y from h)
      exact (List.eq_of_mem_replicate this).symm

theorem spread_fits {α : Type*} {d : Arr ℤ} {x : Arr α} (h : (spread d x).shape = d.shape) :
    x.shape = none ∨ x.shape = d.shape := by
  cases x with
  | one a => exact .inl rfl
  | many l => cases d <;> exact .inr h

theorem entry_map {α β : Type*} {x : Arr α} {i : ℕ} {y : α} (f : α → β) (h : EntryIs x i y) : EntryIs (x.map f) i (f y) := by
  cases x with
  | one a => cases h; rfl
  | many l =>
    replace h : l[i]? = some y := h
    simp [EntryIs, Arr.map, h]

/-- What the constructor does with NaN as magnitude. -/
theorem Mags.construct {lower : String → String} {a : Args} {v : VD} (h : construct lower a = .ok v)
    (hm : a.vectMag.allNan = true) : Mags v := by
  obtain ⟨m, sh, b, rfl⟩ := (construct_iff _ _ _).1 h
  obtain ⟨s, hs, hst⟩ := b.mag
  have hms : m = s := by
    rcases hst with ⟨-, h⟩ | ⟨h, -⟩
    · exact h
    · rw [hm] at h; cases h
  subst hms
  have e1 : (spread a.datInd a.vectN).shape = (spread a.datInd a.vectE).shape := b.vectN.trans b.vectE.symm
  have e2 : (spread a.datInd a.vectE).shape = (spread a.datInd a.vectZ).shape := b.vectE.trans b.vectZ.symm
  obtain ⟨k, hk⟩ : ∃ k, a.datInd.shape = none ∨ a.datInd.shape = some k := by
    cases a.datInd.shape with
    | none => exact ⟨0, .inl rfl⟩
    | some k => exact ⟨k, .inr rfl⟩
  have fits : ∀ x : Arr F, (spread a.datInd x).shape = a.datInd.shape → x.shape = none ∨ x.shape = some k := by
    intro x hx
    rcases spread_fits hx with h | h
    · exact .inl h
    · rw [h]; exact hk
  refine ⟨e1, e2, ?_⟩
  intro i p q r hp hq hr
  replace hp : EntryIs a.vectN i p := entry_spread hp
  replace hq : EntryIs a.vectE i q := entry_spread hq
  replace hr : EntryIs a.vectZ i r := entry_spread hr
  refine ⟨mag3 ((p, q), r), ?_, length_mag3 _ _ _⟩
  show EntryIs m i _
  unfold magArr at hs
  simp only [bind, Except.bind, pure, Except.pure] at hs
  split at hs
  · cases hs
  · rename_i ne hne
    split at hs
    · cases hs
    · rename_i nez hnez
      cases hs
      obtain ⟨h1, f1⟩ := entry_zip hne (fits _ b.vectN) (fits _ b.vectE) hp hq
      obtain ⟨h2, -⟩ := entry_zip hnez f1 (fits _ b.vectZ) h1 hr
      exact entry_map mag3 h2

/-! ## Results -/

/-- The magnitudes of the results of the object are right. -/
def ResMags (v : VD) : Prop := MagsRight v.ocbN v.ocbE v.ocbZ v.ocbMag

theorem ResMags.congr {v w : VD} (h : ResMags v) (h1 : w.ocbN = v.ocbN) (h2 : w.ocbE = v.ocbE) (h3 : w.ocbZ = v.ocbZ)
    (h4 : w.ocbMag = v.ocbMag) : ResMags w := by
  unfold ResMags
  rw [h1, h2, h3, h4]
  exact h

theorem ResMags.cleared (v : VD) : ResMags (clearData v) :=
  (mags_of (n := .full v.vshape none) (e := .full v.vshape none) (z := .full v.vshape none) rfl rfl
    (magArr_full v.vshape none none none)).1

theorem joined_none {s t : Shape} (h : joined s t = none) : s = none ∧ t = none := by
  cases s with
  | none => cases t with
    | none => exact ⟨rfl, rfl⟩
    | some b => cases h
  | some a => cases t with
    | none => cases h
    | some b => simp only [joined] at h; split_ifs at h

theorem adjust_one {v : VD} {o : VOut} (h : adjust v = .ok (.one o)) :
    v.vectN.shape = none ∧ v.vectE.shape = none ∧ v.vectZ.shape = none := by
  unfold adjust at h
  simp only [bind, Except.bind] at h
  repeat (split at h; · cases h)
  rename_i data hdata _ pole hpole _ dp hdp _ aq haq _ ne hne _ nez hnez _ vec hvec _ av hav _ all hall
  have hs : all.shape = none := by
    cases all with
    | one x => rfl
    | many xs =>
      simp only [Arr.map] at h
      cases nez with
      | one y =>
        simp only at h
        cases hc : adjustMany (xs.map mkIn) <;> rw [hc] at h <;> cases h
      | many ys =>
        simp only at h
        cases hc : adjustArr (xs.map mkIn) <;> rw [hc] at h <;> cases h
  have h1 := (joined_none ((zip_joined hall).symm.trans hs)).2
  have h2 := (joined_none ((zip_joined hav).symm.trans h1)).2
  have h3 := (joined_none ((zip_joined hvec).symm.trans h2)).1
  have h4 := joined_none ((zip_joined hnez).symm.trans h3)
  have h5 := joined_none ((zip_joined hne).symm.trans h4.1)
  exact ⟨h5.1, h5.2, h4.2⟩

theorem ResMags.scaled {v w : VD} (h : scaleVector v = .ok w) : ResMags w := by
  unfold scaleVector at h
  split_ifs at h
  simp only [bind, Except.bind, pure, Except.pure] at h
  split at h
  · cases h
  · rename_i out hout
    split at h
    · cases h
    · rename_i x hx
      obtain ⟨n, e, z⟩ := x
      simp only at h
      split at h
      · cases h
      · rename_i m hm
        cases h
        have hs : n.shape = e.shape ∧ e.shape = z.shape := by
          split at hx
          · cases hx; simp only [map_shape, and_self]
          · split at hx
            · split at hx
              · rename_i o
                split at hx
                · cases hx
                split at hx
                · cases hx
                rename_i q1
                split at hx
                · cases hx
                split at hx
                · cases hx
                rename_i q2
                split at hx
                · cases hx
                split at hx
                · cases hx
                rename_i q3
                cases hx
                rw [fillOne_shape q1, fillOne_shape q2, fillOne_shape q3]
                exact ⟨rfl, rfl⟩
              · split at hx
                · cases hx
                · rename_i q1
                  split at hx
                  · cases hx
                  · rename_i q2
                    split at hx
                    · cases hx
                    · rename_i q3
                      cases hx
                      rw [applyScale_joined q1, applyScale_joined q2, applyScale_joined q3]
                      simp only [map_shape, and_self]
            · cases hx
        exact (mags_of hs.1 hs.2 hm).1

theorem vectorShape_res (v : VD) : (testVectorShape v).1.ocbN = v.ocbN ∧ (testVectorShape v).1.ocbE = v.ocbE ∧
    (testVectorShape v).1.ocbZ = v.ocbZ ∧ (testVectorShape v).1.ocbMag = v.ocbMag := by
  unfold testVectorShape
  simp only
  split_ifs <;> exact ⟨rfl, rfl, rfl, rfl⟩

theorem ResMags.boundShape {v : VD} (h : ResMags v) : ResMags (testBoundShape v).1 := by
  obtain ⟨s, hs⟩ := testBoundShape_form v
  rw [hs]
  exact h

theorem ResMags.datInd {v : VD} (h : ResMags v) (i : Arr ℤ) : ResMags (setDatInd v i).1 := by
  have h0 : ResMags { v with datInd := i } := h
  obtain ⟨r1, r2, r3, r4⟩ := vectorShape_res { v with datInd := i }
  have h1 := h0.congr r1 r2 r3 r4
  unfold setDatInd
  simp only
  rcases hq : testVectorShape { v with datInd := i } with ⟨w, e | u⟩
  · rw [hq] at h1; exact h1
  · rw [hq] at h1
    have h2 := ResMags.boundShape h1
    simp only at h2 ⊢
    rcases hq' : testBoundShape w with ⟨w', e | u⟩
    · rw [hq'] at h2; exact h2
    · simp only
      split
      · rename_i x hx
        obtain ⟨s, m, -, -, rfl⟩ := (setVectMag_iff _ _ _).1 hx
        exact ResMags.cleared w'
      · exact ResMags.cleared w'

theorem ResMags.ocbInd {v : VD} (h : ResMags v) (i : Arr ℤ) : ResMags (setOcbInd v i).1 := by
  have h1 := ResMags.boundShape (show ResMags { v with ocbInd := i } from h)
  unfold setOcbInd
  split
  · exact ResMags.cleared _
  · rename_i w hw; rw [hw] at h1; exact h1
  · rename_i w hw
    rw [hw] at h1
    have h2 := ResMags.boundShape (show ResMags (unsetBound w) from h1)
    split
    · exact ResMags.cleared _
    · rename_i x e hx; rw [hx] at h2; exact h2

theorem ResMags.toMag {lower : String → String} {A : Aacgm} {v w : VD} {ts : Arr Tod} {hem : ℤ} (hv : ResMags v)
    (h : updateVect lower A v ts hem = .ok w) : ResMags w := by
  by_cases hc : v.vectCoord = "magnetic"
  · rw [C120_magnetic lower A v ts hem hc] at h
    cases h; exact hv
  · obtain ⟨u, p, hb, hw⟩ := updateVect_steps h hc
    have hu := bothPlaces_vector hb
    have h1 : ResMags u := hv.congr (by rw [hu]) (by rw [hu]) (by rw [hu]) (by rw [hu])
    rcases hw with ⟨rfl, -⟩ | ⟨hw, -⟩
    · exact h1
    · exact h1.congr (by rw [hw]) (by rw [hw]) (by rw [hw]) (by rw [hw])

theorem ResMags.setOcb {conv : VD → Arr Tod → ℤ → Except PyErr VD} {b : Bnd} {f : Option (F → F → F → F)} {v w : VD} {c : ℤ}
    (h : setOcb conv b f v = .ok (w, c)) (hconv : ∀ t u, conv v t b.hem = .ok u → ResMags u) (hv : ResMags v) :
    ResMags w := by
  unfold Ocb.Scale.setOcb at h
  simp only [bind, Except.bind, pure, Except.pure] at h
  split at h
  · cases h
  · rename_i t ht
    split at h
    · cases h
    · rename_i u hu
      have h1 : ResMags u := by
        split_ifs at hu with hc
        · exact hconv t u hu
        · cases hu; exact hv
      split at h
      · cases h
      · rename_i x hx
        obtain ⟨v1, c1⟩ := x
        obtain ⟨la, a, m, r, rfl⟩ := fillCoords_only hx
        simp only at h
        split_ifs at h with hc
        · cases h; exact h1
        · split at h
          · cases h
          · rename_i v2 h2
            split at h
            · cases h
            · rename_i v3 h3
              cases h
              obtain ⟨a1, a2, a3, a4, a5, -, -, hr⟩ := steps_inv h2 h3
              rcases hr with ⟨-, rfl⟩ | ⟨h5, a6, a7, n, e, z, m, g, -, -, hsc, rfl⟩
              · exact h1
              · exact ResMags.scaled hsc

theorem ResMags.after {lower : String → String} {A : Aacgm} {c : VCall} {v w : VD} (h : After lower A c v w)
    (hv : ResMags v) : ResMags w := by
  cases c with
  | datInd i => rw [show w = _ from h]; exact hv.datInd i
  | ocbInd i => rw [show w = _ from h]; exact hv.ocbInd i
  | lat x => rw [show w = _ from h]; exact hv
  | lt x => rw [show w = _ from h]; exact hv
  | height x => rw [show w = _ from h]; exact hv
  | ocbLat x => rw [show w = _ from h]; exact hv
  | ocbMlt x => rw [show w = _ from h]; exact hv
  | rCorr x => rw [show w = _ from h]; exact hv
  | components n e z => rw [show w = _ from h]; exact hv
  | magnitude m =>
    obtain ⟨s, m, -, -, rfl⟩ := (setVectMag_iff _ _ _).1 h
    exact hv
  | scaleFunc f => rw [show w = _ from h]; exact hv
  | clear => rw [show w = _ from h]; exact ResMags.cleared v
  | setOcb b f =>
    obtain ⟨r, h⟩ := h
    exact ResMags.setOcb h (fun t u hu => hv.toMag hu) hv
  | poleAngle => rw [calcPoleAngle_place h]; exact hv
  | quadrants =>
    have := defineQuadrants_local h rfl rfl rfl rfl rfl rfl rfl
    rw [show defineQuadrants v = _ from h] at this
    rw [Except.ok.inj this]
    exact hv
  | scale => exact ResMags.scaled h
  | toCoord ts coord =>
    have := (updateLoc_rest h).1
    exact hv.congr (by rw [this]) (by rw [this]) (by rw [this]) (by rw [this])
  | toMag ts hem => exact hv.toMag h

/-! ## The claims -/

/-- C165: an object made without a magnitude has the lengths of its vectors as magnitudes after any program that does
not assign components or magnitudes.  Missing: programs that do (refuted below). -/
theorem C165_vector_partial (lower : String → String) (A : Aacgm) (a : Args) (v w : VD) (h : construct lower a = .ok v)
    (hm : ∀ x ∈ a.vectMag.entries, x = none) (hr : Runs lower A KeepsVector v w) :
    MagsRight w.vectN w.vectE w.vectZ w.vectMag := by
  refine Mags.runs hr (Mags.construct h ?_)
  unfold Arr.allNan
  rw [List.all_eq_true]
  intro x hx
  rw [hm x hx]; rfl

/-- The premises occur: a vector given two data indices, then moved, then asked for its magnitude again. -/
example (A : Aacgm) : ∃ v w, construct id (oneArgs 0 3 75 22 50 86 5 "magnetic" "magnetic") = .ok v ∧
    Runs id A KeepsVector v w ∧ w.vectN = .many [some 50, some 50] ∧ w.lat = .many [some 80, some 81] := by
  rw [construct_eq]
  simp only [oneArgs, id, (C50_test "magnetic" "magnetic").1.2 (by simp [Compatible])]
  exact ⟨_, _, rfl, .next (.magnitude (.one none)) rfl (.next (.lat (.many [some 80, some 81])) trivial
    (.next (.datInd (.many [4, 5])) trivial (.start _) rfl) rfl) rfl, rfl, rfl⟩

/-- C165: the magnitude of a result is the length of the result, whatever the program does. -/
theorem C165_results (lower : String → String) (A : Aacgm) (a : Args) (v w : VD) (h : construct lower a = .ok v)
    (hr : Runs lower A (fun _ => True) v w) : MagsRight w.ocbN w.ocbE w.ocbZ w.ocbMag := by
  have hv : ResMags v := by
    obtain ⟨m, sh, b, rfl⟩ := (construct_iff _ _ _).1 h
    exact ResMags.cleared { beforeBound lower a m with vshape := sh }
  clear h
  induction hr with
  | start => exact hv
  | next c _ _ hw ih => exact ResMags.after hw ih

/-- A program with results: `set_ocb` on two vectors finds numbers. -/
example (t : Tod) (A : Aacgm) : ∃ w c, setOcb (updateVect id A) (exBnd t) none exVD = .ok (w, c) ∧
    w.ocbN ≠ exVD.ocbN ∧ After id A (.setOcb (exBnd t) none) exVD w := by
  obtain ⟨w, c, h, -, -, hN⟩ := exHist t (updateVect id A)
  exact ⟨w, c, h, hN, c, h⟩

/-- C165: after `vdata.vect_mag = np.nan` the magnitudes are right, whatever was assigned before, if the components have
one shape; so they are after the assignment of data indices that succeeds. -/
theorem C165_recalculated (v w : VD) :
    (setVectMag v (.one none) = .ok w → v.vectN.shape = v.vectE.shape → v.vectE.shape = v.vectZ.shape →
      MagsRight w.vectN w.vectE w.vectZ w.vectMag) ∧
    (∀ i, (setDatInd v i).2 = .ok () → (setDatInd v i).1 = w → MagsRight w.vectN w.vectE w.vectZ w.vectMag) := by
  refine ⟨fun h h1 h2 => Mags.nan h1 h2 h, ?_⟩
  rintro i h rfl
  unfold setDatInd at h ⊢
  simp only at h ⊢
  obtain ⟨-, -, -, s4⟩ := testVectorShape_spec { v with datInd := i }
  rcases hq : testVectorShape { v with datInd := i } with ⟨u, e | x⟩
  · rw [hq] at h; simp at h
  · rw [hq] at h s4
    simp only at h s4 ⊢
    obtain ⟨-, s5⟩ := s4 trivial
    obtain ⟨t, t1⟩ := testBoundShape_form u
    rcases hq' : testBoundShape u with ⟨u', e | x⟩
    · rw [hq'] at h; simp at h
    · rw [hq'] at h t1
      simp only at h t1 ⊢
      subst t1
      split
      · rename_i x hx
        exact Mags.nan (v := clearData { u with vshape := t }) ((s5 u.vectN (by simp)).trans (s5 u.vectE (by simp)).symm)
          ((s5 u.vectE (by simp)).trans (s5 u.vectZ (by simp)).symm) hx
      · rename_i e he
        rw [he] at h
        cases h

/-- A statement that neither changes data indices nor asks for the magnitude. -/
def LeavesMag : VCall → Prop
  | .datInd _ => False
  | .magnitude _ => False
  | _ => True

/-- C165 is false for assigned components: the magnitude stays what it was, and no later assignment to other attributes
and no `set_ocb` mends it, as long as the vector is magnetic. -/
theorem C165_assigned_refuted (lower : String → String) (A : Aacgm) (v w : VD) (n e z : Arr F)
    (hm : v.vectCoord = "magnetic") (hr : Runs lower A LeavesMag (setComponents v n e z) w) :
    w.vectMag = v.vectMag ∧ w.vectCoord = "magnetic" := by
  induction hr with
  | start => exact ⟨rfl, hm⟩
  | next c hc _ hw ih =>
    obtain ⟨i1, i2⟩ := ih
    rename_i x y _
    suffices y.vectMag = x.vectMag ∧ y.vectCoord = x.vectCoord from ⟨this.1.trans i1, this.2.trans i2⟩
    cases c with
    | datInd i => exact hc.elim
    | ocbInd i =>
      rw [show y = _ from hw]
      unfold setOcbInd
      obtain ⟨s, hs⟩ := testBoundShape_form { x with ocbInd := i }
      split
      · rename_i u hu; rw [hu] at hs; rw [show u = _ from hs]; exact ⟨rfl, rfl⟩
      · rename_i u hu; rw [hu] at hs; rw [show u = _ from hs]; exact ⟨rfl, rfl⟩
      · rename_i u hu
        rw [hu] at hs
        replace hs : u = _ := hs
        subst hs
        obtain ⟨s', hs'⟩ := testBoundShape_form (unsetBound { x with ocbInd := i, vshape := s })
        split
        · rename_i u hu'; rw [hu'] at hs'; rw [show u = _ from hs']; exact ⟨rfl, rfl⟩
        · rename_i u e hu'; rw [hu'] at hs'; rw [show u = _ from hs']; exact ⟨rfl, rfl⟩
    | lat a => rw [show y = _ from hw]; exact ⟨rfl, rfl⟩
    | lt a => rw [show y = _ from hw]; exact ⟨rfl, rfl⟩
    | height a => rw [show y = _ from hw]; exact ⟨rfl, rfl⟩
    | ocbLat a => rw [show y = _ from hw]; exact ⟨rfl, rfl⟩
    | ocbMlt a => rw [show y = _ from hw]; exact ⟨rfl, rfl⟩
    | rCorr a => rw [show y = _ from hw]; exact ⟨rfl, rfl⟩
    | components n e z => rw [show y = _ from hw]; exact ⟨rfl, rfl⟩
    | magnitude m => exact hc.elim
    | scaleFunc f => rw [show y = _ from hw]; exact ⟨rfl, rfl⟩
    | clear => rw [show y = _ from hw]; exact ⟨rfl, rfl⟩
    | setOcb b f =>
      obtain ⟨r, h⟩ := hw
      obtain ⟨-, v1, h1, h2⟩ := setOcb_inv i2 h
      obtain ⟨la, a, m, r, rfl⟩ := fillCoords_only h1
      rcases h2 with ⟨-, rfl⟩ | ⟨-, v2, h2, h3⟩
      · exact ⟨rfl, rfl⟩
      · obtain ⟨a1, a2, a3, a4, a5, -, -, hr⟩ := steps_inv h2 h3
        rcases hr with ⟨-, rfl⟩ | ⟨h5, a6, a7, n, e, z, m, g, -, -, hsc, rfl⟩ <;> exact ⟨rfl, rfl⟩
    | poleAngle => rw [calcPoleAngle_place hw]; exact ⟨rfl, rfl⟩
    | quadrants =>
      have := defineQuadrants_local hw rfl rfl rfl rfl rfl rfl rfl
      rw [show defineQuadrants x = _ from hw] at this
      rw [Except.ok.inj this]
      exact ⟨rfl, rfl⟩
    | scale =>
      have := scaleVector_local hw rfl rfl rfl rfl rfl rfl rfl rfl rfl rfl rfl rfl rfl
      rw [show scaleVector x = _ from hw] at this
      rw [Except.ok.inj this]
      exact ⟨rfl, rfl⟩
    | toCoord ts coord =>
      have := (updateLoc_rest hw).1
      exact ⟨by rw [this], by rw [this]⟩
    | toMag ts hem =>
      replace hw : updateVect lower A x ts hem = .ok y := hw
      rw [C120_magnetic lower A x ts hem i2] at hw
      cases hw
      exact ⟨rfl, rfl⟩

/-- An instance: a vector of length 5 that claims the length of another one after `clear_data`. -/
example (A : Aacgm) : ∃ v w, construct id (oneArgs 0 3 75 22 0 0 1 "magnetic" "magnetic") = .ok v ∧
    Runs id A LeavesMag (setComponents v (.one (some 3)) (.one (some 4)) (.one (some 0))) w ∧
    ¬ MagsRight w.vectN w.vectE w.vectZ w.vectMag := by
  obtain ⟨v, hv, -⟩ := oneArgs_ok id rfl 0 3 75 22 0 0 1
  have hm : v.vectMag = .one (some 1) ∧ v.vectCoord = "magnetic" := by
    rw [construct_eq] at hv
    simp only [oneArgs, id, (C50_test "magnetic" "magnetic").1.2 (by simp [Compatible])] at hv
    refine ⟨(congrArg VD.vectMag (Except.ok.inj hv)).symm.trans ?_, (congrArg VD.vectCoord (Except.ok.inj hv)).symm⟩
    show Arr.one (some (√((0 : ℝ) ^ 2 + 0 ^ 2 + 1 ^ 2))) = _
    norm_num
  have hr : Runs id A LeavesMag (setComponents v (.one (some 3)) (.one (some 4)) (.one (some 0)))
      (clearData (setComponents v (.one (some 3)) (.one (some 4)) (.one (some 0)))) := .next .clear trivial (.start _) rfl
  refine ⟨v, _, hv, hr, ?_⟩
  have h := (C165_assigned_refuted id A v _ _ _ _ hm.2 hr).1
  rw [h, hm.1]
  rintro ⟨-, -, h⟩
  obtain ⟨r, h1, h2, -⟩ := h 0 (some 3) (some 4) (some 0) rfl rfl rfl
  obtain ⟨x, hx, -, hx2⟩ := h2 3 4 0 rfl rfl rfl
  replace h1 : some (1 : ℝ) = r := h1
  rw [hx] at h1
  rw [← Option.some.inj h1] at hx2
  norm_num at hx2

/-- C165 is false for a magnitude that is given: it is stored whatever it is, NaN entries beside numbers included. -/
theorem C165_given_refuted (lower : String → String) (a : Args) (v : VD) (h : construct lower a = .ok v)
    (hm : ∃ x ∈ a.vectMag.entries, x ≠ none) : v.vectMag = a.vectMag := by
  obtain ⟨m, sh, b, rfl⟩ := (construct_iff _ _ _).1 h
  obtain ⟨s, hs, hst⟩ := b.mag
  rcases hst with ⟨h1, -⟩ | ⟨-, h1, -⟩
  · obtain ⟨x, hx, hx'⟩ := hm
    unfold Arr.allNan at h1
    rw [List.all_eq_true] at h1
    have := h1 x hx
    cases x with
    | none => exact absurd rfl hx'
    | some y => cases this
  · exact h1

/-- An instance: a vector of length 5 made with the magnitude 7. -/
example : ∃ v, construct id { oneArgs 0 3 75 22 3 4 0 "magnetic" "magnetic" with vectMag := .one (some 7) } = .ok v ∧
    v.vectN = .one (some 3) ∧ v.vectE = .one (some 4) ∧ v.vectZ = .one (some 0) ∧ v.vectMag = .one (some 7) := by
  rw [construct_eq]
  simp only [oneArgs, id, (C50_test "magnetic" "magnetic").1.2 (by simp [Compatible])]
  exact ⟨_, rfl, rfl, rfl, rfl, rfl⟩

/-- Components given as single values for several data are spread over the data indices, the magnitude is not: it has
another shape than the components. -/
theorem C165_shape_refuted (lower : String → String) (a : Args) (v : VD) (ds : List ℤ) (n e z : F)
    (h : construct lower a = .ok v) (hd : a.datInd = .many ds) (hn : a.vectN = .one n) (he : a.vectE = .one e)
    (hz : a.vectZ = .one z) (hm : ∀ x ∈ a.vectMag.entries, x = none) :
    v.vectN = .many (List.replicate ds.length n) ∧ v.vectMag = .one (mag3 ((n, e), z)) := by
  obtain ⟨m, sh, b, rfl⟩ := (construct_iff _ _ _).1 h
  obtain ⟨s, hs, hst⟩ := b.mag
  rw [hn, he, hz] at hs
  refine ⟨?_, ?_⟩
  · show spread a.datInd a.vectN = _
    rw [hd, hn]; rfl
  · rcases hst with ⟨-, h1⟩ | ⟨h1, -⟩
    · show m = _
      rw [h1]
      exact (Except.ok.inj hs).symm
    · exfalso
      unfold Arr.allNan at h1
      rw [List.all_eq_false] at h1
      obtain ⟨x, hx, hx'⟩ := h1
      rw [hm x hx] at hx'
      exact hx' rfl

/-- An instance: a northward field for three data. -/
example : ∃ v, construct id { oneArgs 0 3 75 22 1 0 0 "magnetic" "magnetic" with datInd := .many [0, 1, 2] } = .ok v ∧
    v.vectN = .many [some 1, some 1, some 1] ∧ v.vectMag.shape = none := by
  rw [construct_eq]
  simp only [oneArgs, id, (C50_test "magnetic" "magnetic").1.2 (by simp [Compatible])]
  exact ⟨_, rfl, rfl, rfl⟩

end Ocb.Scale
