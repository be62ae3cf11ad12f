import Verif.Props.Scaling
import Verif.Props.Pole

/-!
# C49: `scale_vector` for single vectors and arrays
-/

set_option autoImplicit false

namespace Ocb.Scale

open Ocb.Time Ocb.Coord Ocb.Vec

/-! ## Rows of vectors -/

theorem zip_many {α β : Type*} (l : List α) (m : List β) (h : l.length = m.length) :
    (Arr.many l).zip (.many m) = .ok (.many (l.zip m)) := by
  simp [Arr.zip, h]

theorem zip_maps {α β γ : Type*} (xs : List α) (f : α → β) (g : α → γ) :
    (Arr.many (xs.map f)).zip (.many (xs.map g)) = .ok (.many (xs.map fun x => (f x, g x))) := by
  rw [zip_many _ _ (by simp)]
  congr 2
  induction xs with
  | nil => rfl
  | cons x xs ih => simp [ih]

/-- The object holds one vector `x` with its pole, everything as single values. -/
structure Single (v : VD) (x : VIn) : Prop where
  lt : v.lt = .one x.lt
  lat : v.lat = .one x.lat
  n : v.vectN = .one x.n
  e : v.vectE = .one x.e
  z : v.vectZ = .one x.z
  vq : v.vecQuad = .one x.vq
  poleLt : v.aacgmMlt = .one x.poleLt
  poleLat : v.aacgmLat = .one x.poleLat
  ang : v.poleAngle = .one x.ang
  pq : v.ocbQuad = .one x.pq

/-- The object holds the vectors `xs` with their poles, everything as arrays. -/
structure Row (v : VD) (xs : List VIn) : Prop where
  lt : v.lt = .many (xs.map VIn.lt)
  lat : v.lat = .many (xs.map VIn.lat)
  n : v.vectN = .many (xs.map VIn.n)
  e : v.vectE = .many (xs.map VIn.e)
  z : v.vectZ = .many (xs.map VIn.z)
  vq : v.vecQuad = .many (xs.map VIn.vq)
  poleLt : v.aacgmMlt = .many (xs.map VIn.poleLt)
  poleLat : v.aacgmLat = .many (xs.map VIn.poleLat)
  ang : v.poleAngle = .many (xs.map VIn.ang)
  pq : v.ocbQuad = .many (xs.map VIn.pq)

theorem adjust_single {v : VD} {x : VIn} (h : Single v x) : adjust v = (adjustOne x).map .one := by
  unfold adjust
  rw [h.lt, h.lat, h.n, h.e, h.z, h.vq, h.poleLt, h.poleLat, h.ang, h.pq]
  rfl

theorem adjust_row {v : VD} {xs : List VIn} (h : Row v xs) : adjust v = (adjustArr xs).map .many := by
  unfold adjust
  rw [h.lt, h.lat, h.n, h.e, h.z, h.vq, h.poleLt, h.poleLat, h.ang, h.pq]
  simp only [zip_maps, bind, Except.bind, Arr.map, List.map_map]
  have : (mkIn ∘ fun x : VIn => (((x.lt, x.lat), x.poleLt, x.poleLat), (x.ang, x.pq), ((x.n, x.e), x.z), x.vq)) = id := by
    funext x; rfl
  rw [this, List.map_id]

/-! ## C49 -/

theorem applyScale_many (f : F → F → F → F) (x u s : List F) (hu : u.length = x.length) (hs : s.length = x.length) :
    applyScale f (.many x) (.many u) (.many s) =
      .ok (.many ((x.zip (u.zip s)).map fun y => f y.1 y.2.1 y.2.2)) := by
  unfold applyScale
  rw [zip_many u s (hu.trans hs.symm)]
  simp only [bind, Except.bind, pure, Except.pure]
  rw [zip_many x _ (by simp [hu, hs])]
  rfl

theorem applyScale_get (f : F → F → F → F) (x u s : List F) (i : ℕ) (a b c : F) (hx : x[i]? = some a)
    (hu : u[i]? = some b) (hs : s[i]? = some c) :
    ((x.zip (u.zip s)).map fun y => f y.1 y.2.1 y.2.2)[i]? = some (f a b c) := by
  have h1 : (u.zip s)[i]? = some (b, c) := List.getElem?_zip_eq_some.2 ⟨hu, hs⟩
  have h2 : (x.zip (u.zip s))[i]? = some (a, b, c) := List.getElem?_zip_eq_some.2 ⟨hx, h1⟩
  rw [List.getElem?_map, h2]; rfl

theorem magArr_many (n e z : List F) (he : e.length = n.length) (hz : z.length = n.length) :
    magArr (.many n) (.many e) (.many z) = .ok (.many (((n.zip e).zip z).map mag3)) := by
  unfold magArr
  rw [zip_many n e he.symm]
  simp only [bind, Except.bind, pure, Except.pure]
  rw [zip_many _ z (by simp [he, hz])]
  rfl

theorem magArr_get (n e z : List F) (i : ℕ) (a b c : F) (hn : n[i]? = some a) (he : e[i]? = some b)
    (hz : z[i]? = some c) : (((n.zip e).zip z).map mag3)[i]? = some (mag3 ((a, b), c)) := by
  have h1 : (n.zip e)[i]? = some (a, b) := List.getElem?_zip_eq_some.2 ⟨hn, he⟩
  have h2 : ((n.zip e).zip z)[i]? = some ((a, b), c) := List.getElem?_zip_eq_some.2 ⟨h1, hz⟩
  rw [List.getElem?_map, h2]; rfl

/-- C49 for arrays: entry by entry the scale function applied to the rotated components. -/
theorem C49_array (v : VD) (xs : List VIn) (h : Row v xs) (us ss : List F) (f : F → F → F → F) (os : List VOut)
    (hlat : v.lat.allNan = false) (hlt : v.lt.allNan = false) (hp : v.aacgmMlt.allNan = false)
    (ha : v.poleAngle.allNan = false) (hf : v.scaleFunc = some f) (hu : v.unscaledR = some (.many us))
    (hs : v.scaledR = some (.many ss)) (hul : us.length = os.length) (hsl : ss.length = os.length)
    (hadj : adjustArr xs = .ok os) :
    ∃ w ns es zs ms, scaleVector v = .ok w ∧ w.ocbN = .many ns ∧ w.ocbE = .many es ∧ w.ocbZ = .many zs ∧
      w.ocbMag = .many ms ∧ ns.length = os.length ∧ es.length = os.length ∧ zs.length = os.length ∧
      ms.length = os.length ∧ ∀ (i : ℕ) (o : VOut) (u s : F), os[i]? = some o → us[i]? = some u → ss[i]? = some s →
        ns[i]? = some (f o.1 u s) ∧ es[i]? = some (f o.2.1 u s) ∧ zs[i]? = some (f o.2.2 u s) ∧
        ms[i]? = some (mag3 ((f o.1 u s, f o.2.1 u s), f o.2.2 u s)) := by
  unfold scaleVector
  rw [if_neg (by simp [hlat, hlt]), if_neg (by simp [hp]), if_neg (by simp [ha]), adjust_row h, hadj, hf, hu, hs]
  simp only [bind, Except.bind, pure, Except.pure, Except.map, Arr.map]
  rw [applyScale_many f _ us ss (by simp [hul]) (by simp [hsl]), applyScale_many f _ us ss (by simp [hul]) (by simp [hsl]),
    applyScale_many f _ us ss (by simp [hul]) (by simp [hsl])]
  simp only
  rw [magArr_many _ _ _ (by simp) (by simp)]
  refine ⟨_, _, _, _, _, rfl, rfl, rfl, rfl, rfl, by simp [hul, hsl], by simp [hul, hsl], by simp [hul, hsl],
    by simp [hul, hsl], ?_⟩
  intro i o u s ho hui hsi
  have g1 := applyScale_get f (os.map fun x => x.1) us ss i o.1 u s (by rw [List.getElem?_map, ho]; rfl) hui hsi
  have g2 := applyScale_get f (os.map fun x => x.2.1) us ss i o.2.1 u s (by rw [List.getElem?_map, ho]; rfl) hui hsi
  have g3 := applyScale_get f (os.map fun x => x.2.2) us ss i o.2.2 u s (by rw [List.getElem?_map, ho]; rfl) hui hsi
  exact ⟨g1, g2, g3, magArr_get _ _ _ i _ _ _ g1 g2 g3⟩

/-- What `scale_vector` does to a single vector: the scale function is applied to the components before the rotation,
so that the rotation has no effect on the result. -/
theorem scaleVector_single (v : VD) (x : VIn) (h : Single v x) (f : F → F → F → F) (u s : F) (o : VOut)
    (hlat : x.lat ≠ none) (hlt : x.lt ≠ none) (hp : x.poleLt ≠ none) (ha : x.ang ≠ none) (hf : v.scaleFunc = some f)
    (hu : v.unscaledR = some (.one u)) (hs : v.scaledR = some (.one s)) (hadj : adjustOne x = .ok o) :
    ∃ w, scaleVector v = .ok w ∧ w.ocbN = .one (f x.n u s) ∧ w.ocbE = .one (f x.e u s) ∧ w.ocbZ = .one (f x.z u s) := by
  have nn : ∀ y : F, y ≠ none → (Arr.one y).allNan = false := by
    intro y hy
    cases y with
    | none => exact absurd rfl hy
    | some a => rfl
  unfold scaleVector
  rw [if_neg (by rw [h.lat, h.lt]; simp [nn _ hlat, nn _ hlt]), if_neg (by rw [h.poleLt]; simp [nn _ hp]),
    if_neg (by rw [h.ang]; simp [nn _ ha]), adjust_single h, hadj, hf, hu, hs, h.n, h.e, h.z]
  exact ⟨_, rfl, rfl, rfl, rfl⟩

/-- C49 is false for single values: with `normal_evar` and positive radii the result for a single vector is that of an
array holding it if and only if the rotation leaves its horizontal components alone. -/
theorem C49_single_refuted (v : VD) (x : VIn) (h : Single v x) (n e u s n' e' : ℝ) (z' : F) (hu0 : 0 < u) (hs0 : 0 < s)
    (hn : x.n = some n) (he : x.e = some e)
    (hlat : x.lat ≠ none) (hlt : x.lt ≠ none) (hp : x.poleLt ≠ none) (ha : x.ang ≠ none)
    (hf : v.scaleFunc = some fun a b c => a.bind fun a => b.bind fun b => c.map fun c => normalEvar a b c)
    (hu : v.unscaledR = some (.one (some u))) (hs : v.scaledR = some (.one (some s)))
    (hadj : adjustOne x = .ok (some n', some e', z')) :
    ∃ w, scaleVector v = .ok w ∧
      (w.ocbN = .one (some (normalEvar n' u s)) ∧ w.ocbE = .one (some (normalEvar e' u s)) ↔ n = n' ∧ e = e') := by
  obtain ⟨w, h1, h2, h3, -⟩ := scaleVector_single v x h _ (some u) (some s) _ hlat hlt hp ha hf hu hs hadj
  refine ⟨w, h1, ?_⟩
  rw [h2, h3, hn, he]
  simp only [Option.bind_some, Option.map_some, Arr.one.injEq, Option.some.injEq, normalEvar]
  constructor
  · rintro ⟨a, b⟩
    constructor
    · field_simp at a; exact a
    · field_simp at b; exact b
  · rintro ⟨rfl, rfl⟩; exact ⟨rfl, rfl⟩

/-- A northward vector with the destination pole due east: the rotation turns it into a westward one. -/
noncomputable def eastPole : VIn :=
  { lt := some 22, lat := some 75, n := some 1, e := some 0, z := some 0, vq := 1, poleLt := some 3, poleLat := some 80
    ang := some 90, pq := 1 }

theorem eastPole_out : adjustOne eastPole = .ok (some 0, some (-1), some 0) := by
  have hN : eastPole.IsNorm := by
    rintro (⟨h, -⟩ | h | h) <;> simp [eastPole] at h
  have hv : eastPole.vmag = some 1 := by simp [VIn.vmag, eastPole]
  have hz : eastPole.naz = some 0 := by
    unfold VIn.naz
    rw [hv]
    simp [eastPole, npArccos, degrees]
  unfold adjustOne
  rw [if_pos hN]
  simp only [show eastPole.vq = 1 from rfl, show eastPole.pq = 1 from rfl, one_ne_zero, if_false]
  rw [if_neg (by decide), if_neg (by decide)]
  unfold normOut
  rw [hv, hz]
  have hd : destPolarEntry 1 1 (some 0) eastPole.ang = some 90 := by
    simp [destPolarEntry, eastPole, destPolarTable]
  rw [hd]
  have hr : radians 90 = Real.pi / 2 := by unfold radians; ring
  simp only [eastPole, hr, lt_irrefl, if_false, Real.cos_pi_div_two, Real.sin_pi_div_two]
  simp [northSign, eastSign]

/-- The object with this vector, `normal_evar` and a polar cap of 16 degrees scaled to 15. -/
noncomputable def eastObject : VD :=
  { datInd := .one 0, ocbInd := .one 0, lat := .one (some 75), lt := .one (some 22), height := .one (some 350)
    vectN := .one (some 1), vectE := .one (some 0), vectZ := .one (some 0), vectMag := .one (some 1)
    locCoord := "magnetic", vectCoord := "magnetic", ocbLat := .one (some 80), ocbMlt := .one (some 1)
    rCorr := .one (some 0), vshape := none, ocbN := .one none, ocbE := .one none, ocbZ := .one none
    ocbMag := .one none, ocbQuad := .one 1, vecQuad := .one 1, poleAngle := .one (some 90), aacgmLat := .one (some 80)
    aacgmMlt := .one (some 3), unscaledR := some (.one (some 16)), scaledR := some (.one (some 15))
    scaleFunc := some fun a b c => a.bind fun a => b.bind fun b => c.map fun c => normalEvar a b c }

/-- C49 fails here: the vector should point west and comes out pointing north. -/
example : ∃ w, scaleVector eastObject = .ok w ∧
    ¬ (w.ocbN = .one (some (normalEvar 0 16 15)) ∧ w.ocbE = .one (some (normalEvar (-1) 16 15))) := by
  obtain ⟨w, h1, h2⟩ := C49_single_refuted eastObject eastPole ⟨rfl, rfl, rfl, rfl, rfl, rfl, rfl, rfl, rfl, rfl⟩
    1 0 16 15 0 (-1) (some 0) (by norm_num) (by norm_num) rfl rfl (by simp [eastPole]) (by simp [eastPole])
    (by simp [eastPole]) (by simp [eastPole]) rfl rfl rfl eastPole_out
  exact ⟨w, h1, fun hc => absurd (h2.1 hc).1 one_ne_zero⟩

/-- C49 without a scale function, as far as it holds: for numbers a single vector and an array holding it alone give
the same result.  Missing: scale functions (refuted above). -/
theorem C49_unscaled_partial (v v' : VD) (x : VIn) (h : Single v x) (h' : Row v' [x]) (n e p : ℝ) (o : VOut)
    (hn : x.n = some n) (he : x.e = some e) (hp : x.ang = some p) (hlat : x.lat ≠ none) (hlt : x.lt ≠ none)
    (hpl : x.poleLt ≠ none) (hf : v.scaleFunc = none) (hf' : v'.scaleFunc = none) (hadj : adjustOne x = .ok o) :
    ∃ w w', scaleVector v = .ok w ∧ scaleVector v' = .ok w' ∧ w.ocbN = .one o.1 ∧ w'.ocbN = .many [o.1] ∧
      w.ocbE = .one o.2.1 ∧ w'.ocbE = .many [o.2.1] ∧ w.ocbZ = .one o.2.2 ∧ w'.ocbZ = .many [o.2.2] ∧
      w.ocbMag = .one (mag3 ((o.1, o.2.1), o.2.2)) ∧ w'.ocbMag = .many [mag3 ((o.1, o.2.1), o.2.2)] := by
  have nn : ∀ y : F, y ≠ none → (Arr.one y).allNan = false ∧ (Arr.many [y]).allNan = false := by
    intro y hy
    cases y with
    | none => exact absurd rfl hy
    | some a => exact ⟨rfl, rfl⟩
  have ha : x.ang ≠ none := by rw [hp]; simp
  have hrow : adjustArr [x] = .ok [o] := by rw [C66_adjust x n e p hn he hp, hadj]; rfl
  have e1 : scaleVector v = .ok { v with
      ocbN := .one o.1, ocbE := .one o.2.1, ocbZ := .one o.2.2, ocbMag := .one (mag3 ((o.1, o.2.1), o.2.2)) } := by
    unfold scaleVector
    rw [if_neg (by rw [h.lat, h.lt]; simp [nn _ hlat, nn _ hlt]), if_neg (by rw [h.poleLt]; simp [nn _ hpl]),
      if_neg (by rw [h.ang]; simp [nn _ ha]), adjust_single h, hadj, hf]
    rfl
  have e2 : scaleVector v' = .ok { v' with
      ocbN := .many [o.1], ocbE := .many [o.2.1], ocbZ := .many [o.2.2]
      ocbMag := .many [mag3 ((o.1, o.2.1), o.2.2)] } := by
    unfold scaleVector
    rw [if_neg (by rw [h'.lat, h'.lt]; simp [nn _ hlat, nn _ hlt]), if_neg (by rw [h'.poleLt]; simp [nn _ hpl]),
      if_neg (by rw [h'.ang]; simp [nn _ ha]), adjust_row h', hrow, hf']
    rfl
  exact ⟨_, _, e1, e2, rfl, rfl, rfl, rfl, rfl, rfl, rfl, rfl⟩

end Ocb.Scale
