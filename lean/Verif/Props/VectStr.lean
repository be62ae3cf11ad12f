import Verif.Model.VectText
import Verif.Props.VectRepr

/-!
# C128: the readable text of a vector object
-/

set_option autoImplicit false

namespace Ocb.Scale

/-! ## Entries -/

theorem entryAt_get {α : Type*} {l : List α} {i : ℕ} {a : α} (h : l[i]? = some a) : entryAt (.many l) i = .ok a := by
  unfold entryAt; simp only [h]

/-- One of several vectors: what is to be written about it. -/
structure Item where
  dat : ℤ
  ocb : ℤ
  lat : F
  lt : F
  height : F
  ocbLat : F
  ocbMlt : F
  mag : F
  n : F
  e : F
  z : F
  rmag : F
  rn : F
  re : F
  rz : F

/-- The lines about the place of a vector. -/
def Item.places (c : String) (y : Item) : List Line :=
  [.place c y.lat y.lt y.height (some y.dat), .bound y.ocbLat y.ocbMlt (some y.ocb)]

/-- The lines about the values of a vector: the vector itself and the result, if there is one. -/
def Item.values (c : String) (y : Item) : List Line :=
  .vector c y.mag y.n y.e y.z (some y.dat) :: if y.rmag.isSome then [.result y.rmag y.rn y.re y.rz (some y.ocb)] else []

/-- The object holds these vectors: arrays throughout, except that the boundary index may be one for all, and the boundary
coordinates one NaN if it is. -/
structure HoldsItems (v : VD) (ys : List Item) : Prop where
  dat : v.datInd = .many (ys.map Item.dat)
  ocb : v.ocbInd = .many (ys.map Item.ocb) ∨ ∃ o, v.ocbInd = .one o ∧ ∀ y ∈ ys, y.ocb = o
  lat : v.lat = .many (ys.map Item.lat)
  lt : v.lt = .many (ys.map Item.lt)
  height : v.height = .many (ys.map Item.height)
  bound : v.ocbLat = .many (ys.map Item.ocbLat) ∧ v.ocbMlt = .many (ys.map Item.ocbMlt) ∨
    v.ocbLat = .one none ∧ v.ocbInd.shape = none ∧ ∀ y ∈ ys, y.ocbLat = none ∧ y.ocbMlt = none
  mag : v.vectMag = .many (ys.map Item.mag)
  n : v.vectN = .many (ys.map Item.n)
  e : v.vectE = .many (ys.map Item.e)
  z : v.vectZ = .many (ys.map Item.z)
  rmag : v.ocbMag = .many (ys.map Item.rmag)
  rn : v.ocbN = .many (ys.map Item.rn)
  re : v.ocbE = .many (ys.map Item.re)
  rz : v.ocbZ = .many (ys.map Item.rz)

theorem entryAt_map {α β : Type*} {ys : List α} {x : Arr β} {f : α → β} {i : ℕ} {y : α} (hx : x = .many (ys.map f))
    (h : ys[i]? = some y) : entryAt x i = .ok (f y) := by
  rw [hx]; exact entryAt_get (by simp [h])

theorem HoldsItems.index {v : VD} {ys : List Item} (h : HoldsItems v ys) {i : ℕ} {y : Item} (hy : ys[i]? = some y) :
    indexAt v.ocbInd i = .ok y.ocb := by
  rcases h.ocb with ho | ⟨o, ho, hall⟩
  · rw [ho, show indexAt (.many (ys.map Item.ocb)) i = entryAt (.many (ys.map Item.ocb)) i from rfl, entryAt_map rfl hy]
  · rw [ho, hall y (List.mem_of_getElem? hy)]; rfl

theorem HoldsItems.boundLine {v : VD} {ys : List Item} (h : HoldsItems v ys) {i : ℕ} {y : Item} (hy : ys[i]? = some y) :
    boundLine v i = .ok (.bound y.ocbLat y.ocbMlt (some y.ocb)) := by
  unfold Scale.boundLine
  rcases h.bound with ⟨h1, h2⟩ | ⟨h1, h2, h3⟩
  · have hn : isSingleNan v.ocbLat = false := by rw [h1]; rfl
    rw [hn]
    simp only [Bool.false_eq_true, if_false, bind, Except.bind, pure, Except.pure]
    rw [entryAt_map h1 hy]
    simp only
    rw [entryAt_map h2 hy]
    simp only
    rw [h.index hy]
  · rw [h1]
    simp only [isSingleNan, if_true, bind, Except.bind, pure, Except.pure]
    obtain ⟨o, ho⟩ : ∃ o, v.ocbInd = .one o := by
      cases hq : v.ocbInd with
      | one o => exact ⟨o, rfl⟩
      | many l => rw [hq] at h2; cases h2
    have hi := h.index hy
    rw [ho] at hi ⊢
    cases hi
    simp only [formatted]
    rw [(h3 y (List.mem_of_getElem? hy)).1, (h3 y (List.mem_of_getElem? hy)).2]

theorem zipIdx_map_mapE {α β : Type*} (ys : List α) (f : α → ℤ) (g : ℤ × ℕ → Except PyErr β) (h : α → β)
    (hg : ∀ i y, ys[i]? = some y → g (f y, i) = .ok (h y)) :
    Ocb.mapE g (ys.map f).zipIdx = .ok (ys.map h) := by
  have gen : ∀ (k : ℕ) (l : List α), (∀ i y, l[i]? = some y → g (f y, k + i) = .ok (h y)) →
      Ocb.mapE g ((l.map f).zipIdx k) = .ok (l.map h) := by
    intro k l
    induction l generalizing k with
    | nil => intro _; rfl
    | cons y l ih =>
      intro hl
      rw [List.map_cons, List.zipIdx_cons]
      simp only [Ocb.mapE]
      rw [show g (f y, k) = .ok (h y) from hl 0 y rfl]
      simp only
      rw [ih (k + 1) (fun i x hx => by rw [show k + 1 + i = k + (i + 1) by omega]; exact hl (i + 1) x (by simpa using hx))]
      rfl
  simpa using gen 0 ys (fun i y hy => by simpa using hg i y hy)

theorem HoldsItems.places {v : VD} {ys : List Item} (h : HoldsItems v ys) :
    strPlaces v = .ok (ys.flatMap (Item.places v.locCoord)) := by
  have key : Ocb.mapE (placeLines v) (ys.map Item.dat).zipIdx = .ok (ys.map (Item.places v.locCoord)) := by
    refine zipIdx_map_mapE ys Item.dat (placeLines v) _ fun i y hy => ?_
    unfold placeLines
    simp only [bind, Except.bind, pure, Except.pure]
    rw [h.boundLine hy]
    simp only
    rw [entryAt_map h.lat hy]
    simp only
    rw [entryAt_map h.lt hy]
    simp only
    rw [entryAt_map h.height hy]
    rfl
  unfold strPlaces
  rw [h.dat]
  rcases h.ocb with ho | ⟨o, ho, -⟩
  · rw [ho]
    simp only [List.length_map, if_true]
    rw [key]
    rfl
  · rw [ho]
    simp only
    rw [key]
    rfl

theorem HoldsItems.loop {v : VD} {ys : List Item} (h : HoldsItems v ys) :
    ∀ (zs : List Item) (k : ℕ) (old : List Line), (∀ i y, zs[i]? = some y → ys[k + i]? = some y) →
      valueLoop v old k (zs.map Item.rmag) = .ok (zs.flatMap (Item.values v.vectCoord)) := by
  intro zs
  induction zs with
  | nil => intro k old _; rfl
  | cons y zs ih =>
    intro k old hz
    have hy : ys[k]? = some y := hz 0 y rfl
    rw [List.map_cons]
    unfold valueLoop
    have h1 : vecLine v k old = .ok [.vector v.vectCoord y.mag y.n y.e y.z (some y.dat)] := by
      unfold vecLine
      rw [h.mag]
      simp only [bind, Except.bind, pure, Except.pure]
      rw [entryAt_map rfl hy]
      simp only
      rw [entryAt_map h.n hy]
      simp only
      rw [entryAt_map h.e hy]
      simp only
      rw [entryAt_map h.z hy]
      simp only
      rw [entryAt_map h.dat hy]
    have h2 : addResult v k y.rmag [.vector v.vectCoord y.mag y.n y.e y.z (some y.dat)] = .ok (y.values v.vectCoord) := by
      unfold addResult Item.values
      cases hr : y.rmag with
      | none => rfl
      | some m =>
        simp only [Option.isSome_some, if_true, bind, Except.bind, pure, Except.pure]
        rw [entryAt_map h.rn hy]
        simp only
        rw [entryAt_map h.re hy]
        simp only
        rw [entryAt_map h.rz hy]
        simp only
        rw [h.index hy]
        rfl
    simp only [bind, Except.bind, pure, Except.pure]
    rw [h1]
    simp only
    rw [h2]
    simp only
    rw [ih (k + 1) _ (fun i x hx => by rw [show k + 1 + i = k + (i + 1) by omega]; exact hz (i + 1) x (by simpa using hx))]
    rfl

/-- **C128** for several vectors, as far as it holds: the text lists the place, the boundary coordinates, the vector and
the result of every vector once, in order, each with its own numbers and index.  Missing: objects whose magnitudes are one
number for all, whose boundary coordinates are one known number for all, or whose heights are not as many as the vectors
(refuted below). -/
theorem C128_listed_partial (v : VD) (ys : List Item) (h : HoldsItems v ys) :
    strLines v = .ok (ys.flatMap (Item.places v.locCoord) ++ ys.flatMap (Item.values v.vectCoord)) := by
  unfold strLines
  simp only [bind, Except.bind, pure, Except.pure]
  rw [h.places]
  simp only
  have : strValues v = .ok (ys.flatMap (Item.values v.vectCoord)) := by
    unfold strValues
    rw [h.mag, h.rmag]
    simp only
    exact h.loop ys 0 [] (fun i y hy => by simpa using hy)
  rw [this]

/-- A single vector with a single boundary. -/
structure HoldsOne (v : VD) (y : Item) : Prop where
  dat : v.datInd = .one y.dat
  ocb : v.ocbInd = .one y.ocb
  lat : v.lat = .one y.lat
  lt : v.lt = .one y.lt
  height : v.height = .one y.height
  ocbLat : v.ocbLat = .one y.ocbLat
  ocbMlt : v.ocbMlt = .one y.ocbMlt
  mag : v.vectMag = .one y.mag
  n : v.vectN = .one y.n
  e : v.vectE = .one y.e
  z : v.vectZ = .one y.z
  rmag : v.ocbMag = .one y.rmag
  rn : v.ocbN = .one y.rn
  re : v.ocbE = .one y.re
  rz : v.ocbZ = .one y.rz

/-- **C128** for a single vector with a single boundary: its place, its boundary coordinates, the vector, and the result
if there is one. -/
theorem C128_single (v : VD) (y : Item) (h : HoldsOne v y) :
    strLines v = .ok ([.place v.locCoord y.lat y.lt y.height none, .bound y.ocbLat y.ocbMlt none,
      .vector v.vectCoord y.mag y.n y.e y.z none] ++
      if y.rmag = none then [] else [.result y.rmag y.rn y.re y.rz none]) := by
  unfold strLines strPlaces strValues placeOne valueOne
  rw [h.dat, h.ocb, h.lat, h.lt, h.height, h.ocbLat, h.ocbMlt, h.mag, h.n, h.e, h.z, h.rmag, h.rn, h.re, h.rz]
  cases y.rmag <;> rfl

/-- A single vector with several boundaries: the entries of the results and of the boundary coordinates. -/
structure HoldsBounds (v : VD) (d : ℤ) (la lt he m n e z : F) (ys : List Item) : Prop where
  dat : v.datInd = .one d
  ocb : v.ocbInd = .many (ys.map Item.ocb)
  lat : v.lat = .one la
  lt : v.lt = .one lt
  height : v.height = .one he
  ocbLat : v.ocbLat = .many (ys.map Item.ocbLat)
  ocbMlt : v.ocbMlt = .many (ys.map Item.ocbMlt)
  mag : v.vectMag = .one m
  n : v.vectN = .one n
  e : v.vectE = .one e
  z : v.vectZ = .one z
  rmag : v.ocbMag = .many (ys.map Item.rmag)
  rn : v.ocbN = .many (ys.map Item.rn)
  re : v.ocbE = .many (ys.map Item.re)
  rz : v.ocbZ = .many (ys.map Item.rz)

/-- The line of a result, if there is one. -/
def Item.result (y : Item) : List Line :=
  if y.rmag.isSome then [.result y.rmag y.rn y.re y.rz (some y.ocb)] else []

/-- The places of a single vector with several boundaries: its location once, and every boundary once. -/
theorem C128_bounds_places_partial {v : VD} {d : ℤ} {la lt he m n e z : F} {ys : List Item}
    (h : HoldsBounds v d la lt he m n e z ys) :
    strPlaces v = .ok (.place v.locCoord la lt he (some d) ::
      ys.map fun y => .bound y.ocbLat y.ocbMlt (some y.ocb)) := by
  unfold strPlaces
  rw [h.dat, h.ocb]
  simp only
  unfold placeBounds
  rw [h.dat, h.lat, h.lt, h.height]
  simp only [formatted, bind, Except.bind, pure, Except.pure]
  rw [zipIdx_map_mapE ys Item.ocb (boundAt v) (fun y => .bound y.ocbLat y.ocbMlt (some y.ocb)) fun i y hy => ?_]
  unfold boundAt
  simp only [bind, Except.bind, pure, Except.pure]
  rw [entryAt_map h.ocbLat hy]
  simp only
  rw [entryAt_map h.ocbMlt hy]

/-- The values of a single vector with several boundaries, as they are really written: the line of the vector and of every
result so far, again and again. -/
theorem bounds_loop {v : VD} {d : ℤ} {la lt he m n e z : F} {ys : List Item} (h : HoldsBounds v d la lt he m n e z ys) :
    ∀ (zs ps : List Item), ps ++ zs = ys → ps ≠ [] →
      valueLoop v (.vector v.vectCoord m n e z (some d) :: ps.flatMap Item.result) ps.length (zs.map Item.rmag) =
        .ok ((List.range zs.length).flatMap fun i =>
          .vector v.vectCoord m n e z (some d) :: (ps ++ zs.take (i + 1)).flatMap Item.result) := by
  intro zs
  induction zs with
  | nil => intro ps _ _; rfl
  | cons y zs ih =>
    intro ps hps hne
    have hy : ys[ps.length]? = some y := by rw [← hps]; simp
    rw [List.map_cons]
    unfold valueLoop
    have h1 : ∀ old, vecLine v ps.length old = .ok old := by
      intro old
      unfold vecLine
      rw [h.mag]
      simp only
      rw [if_neg (by cases ps with | nil => exact absurd rfl hne | cons a l => simp)]
    have h2 : ∀ old, addResult v ps.length y.rmag old = .ok (old ++ y.result) := by
      intro old
      unfold addResult Item.result
      cases hr : y.rmag with
      | none => simp
      | some m =>
        simp only [Option.isSome_some, if_true, bind, Except.bind, pure, Except.pure]
        rw [entryAt_map h.rn hy]
        simp only
        rw [entryAt_map h.re hy]
        simp only
        rw [entryAt_map h.rz hy]
        simp only
        rw [h.ocb, show indexAt (.many (ys.map Item.ocb)) ps.length = entryAt (.many (ys.map Item.ocb)) ps.length from rfl,
          entryAt_map rfl hy]
    simp only [bind, Except.bind, pure, Except.pure]
    rw [h1]
    simp only
    rw [h2]
    simp only
    have := ih (ps ++ [y]) (by rw [← hps]; simp) (by simp)
    rw [List.flatMap_append, List.flatMap_singleton, List.length_append, List.length_singleton] at this
    rw [show (Line.vector v.vectCoord m n e z (some d) :: List.flatMap Item.result ps ++ y.result) =
      Line.vector v.vectCoord m n e z (some d) :: (List.flatMap Item.result ps ++ y.result) from rfl, this]
    simp only [Except.ok.injEq]
    rw [List.length_cons, List.range_succ_eq_map, List.flatMap_cons, List.flatMap_map]
    simp [List.flatMap_append]

/-- **C128** fails for a single vector with several boundaries: the text repeats, for every boundary, the vector and the
results of all boundaries before it, so that the result of the first of `n` boundaries is written `n` times. -/
theorem C128_repeats_refuted (v : VD) (d : ℤ) (la lt he m n e z : F) (ys : List Item)
    (h : HoldsBounds v d la lt he m n e z ys) :
    strValues v = .ok ((List.range ys.length).flatMap fun i =>
      .vector v.vectCoord m n e z (some d) :: (ys.take (i + 1)).flatMap Item.result) := by
  unfold strValues
  rw [h.mag, h.rmag]
  simp only
  cases hys : ys with
  | nil => rfl
  | cons y zs =>
    have hy : ys[0]? = some y := by rw [hys]; rfl
    rw [List.map_cons]
    unfold valueLoop
    have h1 : vecLine v 0 [] = .ok [.vector v.vectCoord m n e z (some d)] := by
      unfold vecLine
      rw [h.mag, h.n, h.e, h.z, h.dat]
      rfl
    have h2 : ∀ old, addResult v 0 y.rmag old = .ok (old ++ y.result) := by
      intro old
      unfold addResult Item.result
      cases hr : y.rmag with
      | none => simp
      | some m =>
        simp only [Option.isSome_some, if_true, bind, Except.bind, pure, Except.pure]
        rw [entryAt_map h.rn hy]
        simp only
        rw [entryAt_map h.re hy]
        simp only
        rw [entryAt_map h.rz hy]
        simp only
        rw [h.ocb, show indexAt (.many (ys.map Item.ocb)) 0 = entryAt (.many (ys.map Item.ocb)) 0 from rfl,
          entryAt_map rfl hy]
    simp only [bind, Except.bind, pure, Except.pure]
    rw [h1]
    simp only
    rw [h2]
    simp only
    have := bounds_loop h zs [y] (by rw [hys]; rfl) (by simp)
    rw [List.flatMap_singleton, List.length_singleton] at this
    rw [show [Line.vector v.vectCoord m n e z (some d)] ++ y.result = Line.vector v.vectCoord m n e z (some d) :: y.result
      from rfl, show (0 : ℕ) + 1 = 1 from rfl, this]
    simp only [Except.ok.injEq]
    rw [List.length_cons, List.range_succ_eq_map, List.flatMap_cons, List.flatMap_map]
    simp

/-- **C128** fails for several vectors with one known boundary latitude: the text raises an `IndexError`. -/
theorem C128_coordinate_refuted (v : VD) (d : ℤ) (ds : List ℤ) (o : ℤ) (x : ℝ) (hd : v.datInd = .many (d :: ds))
    (ho : v.ocbInd = .one o) (hx : v.ocbLat = .one (some x)) : strLines v = .error .indexError := by
  unfold strLines strPlaces
  rw [hd, ho]
  simp only [bind, Except.bind, List.zipIdx_cons, Ocb.mapE]
  have : placeLines v (d, 0) = .error .indexError := by
    unfold placeLines boundLine
    rw [hx]
    rfl
  rw [this]
  rfl

/-- **C128** fails for the objects that the constructor makes of several locations with components given once for all (as
by default): one magnitude is stored for them, and the text raises. -/
theorem C128_components_refuted (lower : String → String) (a : Args) (v : VD) (d : ℤ) (ds : List ℤ) (n e z m : F)
    (h : construct lower a = .ok v) (hd : a.datInd = .many (d :: ds)) (hn : a.vectN = .one n) (he : a.vectE = .one e)
    (hz : a.vectZ = .one z) (hm : a.vectMag = .one m) : ∃ err, strLines v = .error err := by
  obtain ⟨g, sh, b, rfl⟩ := (construct_iff _ _ _).1 h
  obtain ⟨s, hs, hg⟩ := b.mag
  rw [hn, he, hz] at hs
  have hs' : s = .one (mag3 ((n, e), z)) := (Except.ok.inj hs).symm
  obtain ⟨g', rfl⟩ : ∃ x, g = .one x := by
    rcases hg with ⟨-, rfl⟩ | ⟨-, rfl, -⟩
    · exact ⟨_, hs'⟩
    · exact ⟨m, hm⟩
  -- the results have the shape of the data
  obtain ⟨t, t1, t2, t3⟩ := testBoundShape_spec (beforeBound lower a (.one g'))
  rw [b.bound] at t1 t3
  have hsh : sh = some (d :: ds).length := by
    have e1 : sh = t := congrArg VD.vshape t1
    have e2 : (beforeBound lower a (.one g')).datInd.shape = some (d :: ds).length := by
      show a.datInd.shape = _; rw [hd]; rfl
    rcases t2 with t2 | ⟨t2, -⟩
    · rw [e1, t2]; exact e2
    · rw [e2] at t2; cases t2
  unfold strLines
  simp only [bind, Except.bind, pure, Except.pure]
  cases strPlaces (built lower a (.one g') sh) with
  | error err => exact ⟨err, rfl⟩
  | ok l =>
    refine ⟨.typeError, ?_⟩
    simp only
    have : strValues (built lower a (.one g') sh) = .error .typeError := by
      unfold strValues
      rw [show (built lower a (.one g') sh).vectMag = .one g' from rfl,
        show (built lower a (.one g') sh).ocbMag = Arr.full sh none from rfl, hsh]
      simp only [Arr.full, List.length_cons, List.replicate_succ]
      unfold valueLoop vecLine
      rw [show (built lower a (.one g') (some (ds.length + 1))).vectMag = .one g' from rfl,
        show (built lower a (.one g') (some (ds.length + 1))).vectN = spread a.datInd a.vectN from rfl, hd, hn]
      rfl
    rw [this]

theorem mapE_raises {α β : Type*} {f : α → Except PyErr β} {e : PyErr} {l : List α}
    (h : ∀ a ∈ l, (∃ b, f a = .ok b) ∨ f a = .error e) (hx : ∃ a ∈ l, f a = .error e) : Ocb.mapE f l = .error e := by
  induction l with
  | nil => obtain ⟨a, ha, -⟩ := hx; cases ha
  | cons a l ih =>
    simp only [Ocb.mapE]
    rcases h a List.mem_cons_self with ⟨b, hb⟩ | hb
    · rw [hb]
      simp only
      rw [ih (fun a ha => h a (List.mem_cons_of_mem _ ha))]
      obtain ⟨x, hm, hx⟩ := hx
      rcases List.mem_cons.1 hm with rfl | hm
      · rw [hx] at hb; cases hb
      · exact ⟨x, hm, hx⟩
    · rw [hb]

/-- **C128** fails for several vectors with heights of another number, which the constructor does not refuse: the text
raises. -/
theorem C128_height_refuted (v : VD) (ys : List Item) (h : HoldsItems { v with height := .many (ys.map Item.height) } ys)
    (hs : List F) (hh : v.height = .many hs) (hl : hs.length < ys.length) : strLines v = .error .indexError := by
  have key : Ocb.mapE (placeLines v) (ys.map Item.dat).zipIdx = .error .indexError := by
    have step : ∀ i y, ys[i]? = some y → placeLines v (y.dat, i) = match hs[i]? with
        | some x => .ok [.place v.locCoord y.lat y.lt x (some y.dat), .bound y.ocbLat y.ocbMlt (some y.ocb)]
        | none => .error .indexError := by
      intro i y hy
      unfold placeLines
      simp only [bind, Except.bind, pure, Except.pure]
      rw [show boundLine v i = .ok (.bound y.ocbLat y.ocbMlt (some y.ocb)) from h.boundLine hy]
      simp only
      rw [entryAt_map (show v.lat = _ from h.lat) hy]
      simp only
      rw [entryAt_map (show v.lt = _ from h.lt) hy]
      simp only
      rw [hh]
      unfold entryAt
      simp only
      cases hs[i]? <;> rfl
    have elem : ∀ a ∈ (ys.map Item.dat).zipIdx, ∃ y, ys[a.2]? = some y ∧ a.1 = y.dat := by
      rintro ⟨c, i⟩ ha
      have := List.mem_zipIdx_iff_getElem?.1 ha
      rw [List.getElem?_map, Option.map_eq_some_iff] at this
      obtain ⟨y, h1, h2⟩ := this
      exact ⟨y, h1, h2.symm⟩
    refine mapE_raises (fun a ha => ?_) ?_
    · obtain ⟨y, hy, hd⟩ := elem a ha
      have := step a.2 y hy
      rw [← hd] at this
      rw [show placeLines v a = placeLines v (a.1, a.2) from rfl, this]
      cases hs[a.2]? with
      | none => exact .inr rfl
      | some x => exact .inl ⟨_, rfl⟩
    · obtain ⟨y, hy⟩ : ∃ y, ys[hs.length]? = some y := ⟨_, List.getElem?_eq_getElem hl⟩
      refine ⟨(y.dat, hs.length), List.mem_zipIdx_iff_getElem?.2 (by simp [hy]), ?_⟩
      rw [step _ y hy]
      simp
  unfold strLines strPlaces
  rw [show v.datInd = _ from h.dat]
  simp only [bind, Except.bind]
  rcases h.ocb with ho | ⟨o, ho, -⟩
  · rw [show v.ocbInd = _ from ho]
    simp only [List.length_map, if_true]
    rw [key]
    rfl
  · rw [show v.ocbInd = _ from ho]
    simp only
    rw [key]
    rfl

/-! ### Examples -/

/-- The two vectors of the object `pairVD`. -/
def pairItems : List Item :=
  [⟨4, 2, some 75, some 22, some 350, some 77, some 21, some 5, some 3, some 4, some 0, some 4, some 1, some 2, some 3⟩,
   ⟨7, 2, some 80, some 3, some 350, some 81, some 2, none, some 0, some 1, none, none, none, none, none⟩]

theorem pair_items : HoldsItems pairVD pairItems :=
  { dat := rfl, ocb := .inr ⟨2, rfl, by simp [pairItems]⟩, lat := rfl, lt := rfl, height := rfl, bound := .inl ⟨rfl, rfl⟩
    mag := rfl, n := rfl, e := rfl, z := rfl, rmag := rfl, rn := rfl, re := rfl, rz := rfl }

/-- Seven lines: two places, two boundary coordinates, two vectors and one result. -/
example : strLines pairVD = .ok [
    .place "magnetic" (some 75) (some 22) (some 350) (some 4), .bound (some 77) (some 21) (some 2),
    .place "magnetic" (some 80) (some 3) (some 350) (some 7), .bound (some 81) (some 2) (some 2),
    .vector "magnetic" (some 5) (some 3) (some 4) (some 0) (some 4), .result (some 4) (some 1) (some 2) (some 3) (some 2),
    .vector "magnetic" none (some 0) (some 1) none (some 7)] := C128_listed_partial pairVD pairItems pair_items

/-- A single vector with its result. -/
example : ∃ v y, HoldsOne v y ∧ strLines v = .ok [.place "magnetic" (some 75) (some 22) (some 350) none,
    .bound (some 77) (some 21) none, .vector "magnetic" (some 5) (some 3) (some 4) (some 0) none,
    .result (some 4) (some 1) (some 2) (some 3) none] := by
  let v : VD := { pairVD with
    datInd := .one 4, ocbInd := .one 2, lat := .one (some 75), lt := .one (some 22), height := .one (some 350)
    vectN := .one (some 3), vectE := .one (some 4), vectZ := .one (some 0), vectMag := .one (some 5)
    ocbLat := .one (some 77), ocbMlt := .one (some 21), ocbMag := .one (some 4), ocbN := .one (some 1)
    ocbE := .one (some 2), ocbZ := .one (some 3) }
  let y : Item :=
    ⟨4, 2, some 75, some 22, some 350, some 77, some 21, some 5, some 3, some 4, some 0, some 4, some 1, some 2, some 3⟩
  have h : HoldsOne v y :=
    { dat := rfl, ocb := rfl, lat := rfl, lt := rfl, height := rfl, ocbLat := rfl, ocbMlt := rfl, mag := rfl, n := rfl
      e := rfl, z := rfl, rmag := rfl, rn := rfl, re := rfl, rz := rfl }
  refine ⟨v, y, h, ?_⟩
  rw [C128_single v y h, if_neg (by simp [y])]
  rfl

/-- The same vectors with a single known boundary latitude, or with one height too few. -/
example : strLines { pairVD with ocbLat := .one (some 77) } = .error .indexError ∧
    strLines { pairVD with height := .many [some 350] } = .error .indexError :=
  ⟨C128_coordinate_refuted _ 4 [7] 2 77 rfl rfl rfl,
    C128_height_refuted { pairVD with height := .many [some 350] } pairItems { pair_items with } [some 350] rfl
      (by decide)⟩

/-- Two locations and the components given once for both. -/
example : ∃ v err, construct id nanArgs = .ok v ∧ strLines v = .error err := by
  have h : construct id nanArgs = .ok (built id nanArgs (.one none) (some 2)) :=
    (construct_iff _ _ _).2 ⟨_, _, ⟨⟨.one none, rfl, .inl ⟨rfl, rfl⟩⟩, (C50_test _ _).1.2 (by simp [Compatible, nanArgs]),
      rfl, rfl, rfl, rfl, rfl, rfl⟩, rfl⟩
  obtain ⟨err, he⟩ := C128_components_refuted id nanArgs _ 0 [1] _ _ _ _ h rfl rfl rfl rfl rfl
  exact ⟨_, err, h, he⟩

/-- One vector at two boundaries. -/
noncomputable def boundsVD : VD :=
  { pairVD with
    datInd := .one 4, ocbInd := .many [2, 3], lat := .one (some 75), lt := .one (some 22), height := .one (some 350)
    vectN := .one (some 3), vectE := .one (some 4), vectZ := .one (some 0), vectMag := .one (some 5)
    ocbMag := .many [some 4, some 6], ocbN := .many [some 1, some 2], ocbE := .many [some 2, some 4]
    ocbZ := .many [some 3, some 4] }

def boundsItems : List Item :=
  [⟨4, 2, some 75, some 22, some 350, some 77, some 21, some 5, some 3, some 4, some 0, some 4, some 1, some 2, some 3⟩,
   ⟨4, 3, some 75, some 22, some 350, some 81, some 2, some 5, some 3, some 4, some 0, some 6, some 2, some 4, some 4⟩]

/-- The vector and the result at boundary 2 are written twice. -/
example : strValues boundsVD = .ok [
    .vector "magnetic" (some 5) (some 3) (some 4) (some 0) (some 4), .result (some 4) (some 1) (some 2) (some 3) (some 2),
    .vector "magnetic" (some 5) (some 3) (some 4) (some 0) (some 4), .result (some 4) (some 1) (some 2) (some 3) (some 2),
    .result (some 6) (some 2) (some 4) (some 4) (some 3)] :=
  C128_repeats_refuted boundsVD 4 _ _ _ _ _ _ _ boundsItems
    { dat := rfl, ocb := rfl, lat := rfl, lt := rfl, height := rfl, ocbLat := rfl, ocbMlt := rfl, mag := rfl, n := rfl
      e := rfl, z := rfl, rmag := rfl, rn := rfl, re := rfl, rz := rfl }

end Ocb.Scale
