import Verif.Model.Vectors

/-!
# Model of `ocbpy/ocb_scaling.py`

The scale functions, the haversine pair, and the `VectorData` class: construction, index setters, location
coordinates, `set_ocb` and `scale_vector`.  NaN is `none`.
-/

set_option autoImplicit false

namespace Ocb.Scale

open Ocb.Time Ocb.Coord Ocb.Vec

/-- A Python float: NaN or a real. -/
abbrev F := Option ℝ

/-! ## Plain functions -/

/-- `normal_evar(evar, unscaled_r, scaled_r)` (`ocb_scaling.py` 1112-1141) for three numbers.  Division by zero,
which numpy turns into an infinity or NaN, gives 0 here; every claim about it assumes a non-zero divisor. -/
noncomputable def normalEvar (evar unscaledR scaledR : ℝ) : ℝ := evar * unscaledR / scaledR

/-- `normal_curl_evar(curl_evar, unscaled_r, scaled_r)` (`ocb_scaling.py` 1144-1173), same remark. -/
noncomputable def normalCurlEvar (curlEvar unscaledR scaledR : ℝ) : ℝ := curlEvar * (unscaledR / scaledR) ^ 2

/-- `hav(alpha)` (`ocb_scaling.py` 1176-1193), one entry. -/
noncomputable def hav (alpha : F) : F := alpha.map fun a => Real.sin (a * (1 / 2)) ^ 2

/-- `np.arcsin`: NaN outside `[-1, 1]`. -/
noncomputable def npArcsin (x : ℝ) : F := if x < -1 ∨ 1 < x then none else some (Real.arcsin x)

/-- `archav(hav)` (`ocb_scaling.py` 1196-1242), one entry; the branches are taken in the order of the code. -/
noncomputable def archav (h : F) : F :=
  match h with
  | none => none
  | some x =>
    let alpha : F := none
    let alpha := if 1 / 10 ^ 16 ≤ x then (npSqrt x).bind fun s => (npArcsin s).map (2 * ·) else alpha
    if |x| < 1 / 10 ^ 16 then some 0 else alpha

/-! ## Arrays with a shape -/

/-- The shape of a zero- or one-dimensional array: `()` is `none`, `(n,)` is `some n`.  Arrays of two and more
dimensions are not modelled. -/
abbrev Shape := Option ℕ

/-- A numpy array of at most one dimension. -/
inductive Arr (α : Type*) where
  | one (a : α)
  | many (l : List α)

namespace Arr

variable {α β γ : Type*}

/-- `x.shape` -/
def shape : Arr α → Shape
  | one _ => none
  | many l => some l.length

/-- `np.full(shape=s, fill_value=a)` for a single fill value. -/
def full : Shape → α → Arr α
  | none, a => one a
  | some n, a => many (List.replicate n a)

/-- All entries. -/
def entries : Arr α → List α
  | one a => [a]
  | many l => l

/-- Apply a function to every entry. -/
def map (f : α → β) : Arr α → Arr β
  | one a => one (f a)
  | many l => many (l.map f)

/-- Apply a function that can raise to every entry. -/
def mapE (f : α → Except PyErr β) : Arr α → Except PyErr (Arr β)
  | one a => (f a).map one
  | many l => (Ocb.mapE f l).map many

/-- numpy broadcasting of two arrays: a single value and an array of length one stretch, otherwise the lengths have
to agree. -/
def zip : Arr α → Arr β → Except PyErr (Arr (α × β))
  | one a, one b => .ok (one (a, b))
  | one a, many m => .ok (many (m.map fun b => (a, b)))
  | many l, one b => .ok (many (l.map fun a => (a, b)))
  | many l, many m =>
    if l.length = m.length then .ok (many (l.zip m))
    else match l, m with
      | [a], m => .ok (many (m.map fun b => (a, b)))
      | l, [b] => .ok (many (l.map fun a => (a, b)))
      | _, _ => .error .valueError

/-- `np.all(np.isnan(x))` -/
def allNan (x : Arr (Option α)) : Bool := x.entries.all fun e => e.isNone

end Arr

/-- `a <= b` for shapes as Python compares tuples: `()` is the least. -/
def shapeLe : Shape → Shape → Bool
  | none, _ => true
  | some _, none => false
  | some a, some b => decide (a ≤ b)

/-- `max` of a list of shapes, `()` for none. -/
def maxShape (l : List Shape) : Shape := l.foldl (fun a b => if shapeLe a b then b else a) none

/-- The distinct shapes of a list in order of appearance (the loops at lines 377-380 and 413-416). -/
def distinct (l : List Shape) : List Shape := l.foldl (fun acc s => if s ∈ acc then acc else acc ++ [s]) []

/-! ## The class -/

/-- The attributes of a `VectorData` object that the methods below use (`ocb_scaling.py` 27-146).  `unscaledR` and
`scaledR` do not exist before `set_ocb`.  A scale function is taken to act entry by entry, as the two that the
package offers do. -/
structure VD where
  datInd : Arr ℤ
  ocbInd : Arr ℤ
  lat : Arr F
  lt : Arr F
  height : Arr F
  vectN : Arr F
  vectE : Arr F
  vectZ : Arr F
  vectMag : Arr F
  locCoord : String
  vectCoord : String
  ocbLat : Arr F
  ocbMlt : Arr F
  rCorr : Arr F
  vshape : Shape
  ocbN : Arr F
  ocbE : Arr F
  ocbZ : Arr F
  ocbMag : Arr F
  ocbQuad : Arr ℤ
  vecQuad : Arr ℤ
  poleAngle : Arr F
  aacgmLat : Arr F
  aacgmMlt : Arr F
  unscaledR : Option (Arr F)
  scaledR : Option (Arr F)
  scaleFunc : Option (F → F → F → F)

/-- `_dat_attr_setter` and `_ocb_attr_setter` (`ocb_scaling.py` 296-330): a single value is spread over the shape of
the index array. -/
def spread {α : Type*} (ind : Arr ℤ) (v : Arr α) : Arr α :=
  match v, ind with
  | .one a, .many l => .full (some l.length) a
  | v, _ => v

/-- `sqrt(n**2 + e**2 + z**2)` for one entry. -/
noncomputable def mag3 (x : (F × F) × F) : F :=
  match x with
  | ((some n, some e), some z) => some (√(n ^ 2 + e ^ 2 + z ^ 2))
  | _ => none

/-- `np.sqrt(n**2 + e**2 + z**2)` with broadcasting. -/
noncomputable def magArr (n e z : Arr F) : Except PyErr (Arr F) := do
  let ne ← n.zip e
  let nez ← ne.zip z
  return nez.map mag3

/-- The `vect_mag` setter (`ocb_scaling.py` 467-481): NaN asks for the calculated magnitude, anything else is stored
as given once it has been compared with it; the comparison only feeds a warning but can fail on the shapes. -/
noncomputable def setVectMag (v : VD) (m : Arr F) : Except PyErr VD := do
  let s ← magArr v.vectN v.vectE v.vectZ
  if m.allNan then return { v with vectMag := s }
  else do
    let _ ← m.zip s
    return { v with vectMag := m }

/-- `good_coords` (`ocb_scaling.py` 342). -/
def goodCoords : List String := ["magnetic", "geocentric", "geodetic"]

/-- `_test_coords` (`ocb_scaling.py` 332-358). -/
def testCoords (loc vect : String) : Except PyErr Unit :=
  if loc ∉ goodCoords then .error .valueError
  else if vect ∉ goodCoords then .error .valueError
  else if vect ≠ loc ∧ "magnetic" ∉ [vect, loc] then .error .valueError
  else .ok ()

/-- `_test_update_vector_shape` (`ocb_scaling.py` 360-400).  The state is returned together with the outcome because
`vshape` is assigned before the checks.  The conditions on `min(vshapes)` are written with membership of `()`, the
least tuple. -/
def testVectorShape (v : VD) : VD × Except PyErr Unit :=
  let vshapes := distinct
    [v.lat.shape, v.lt.shape, v.datInd.shape, v.vectN.shape, v.vectE.shape, v.vectZ.shape]
  let v := { v with vshape := maxShape vshapes }
  if vshapes.length > 2 ∨ (vshapes.length = 2 ∧ none ∉ vshapes) then (v, .error .valueError)
  else if vshapes.length > 1 ∧ none ∈ vshapes then
    if v.datInd.shape = none then (v, .error .valueError)
    else
      let grow (x : Arr F) : Arr F := match x with
        | .one a => .full v.vshape a
        | x => x
      ({ v with vectN := grow v.vectN, vectE := grow v.vectE, vectZ := grow v.vectZ }, .ok ())
  else (v, .ok ())

/-- The two ways in which `_test_update_bound_shape` fails, which the `ocb_ind` setter tells apart by their text. -/
inductive BoundErr where
  | inputs
  | vector
  deriving DecidableEq

/-- `_test_update_bound_shape` (`ocb_scaling.py` 402-435).  `len(min(oshapes)) > 0` is again membership of `()`. -/
def testBoundShape (v : VD) : VD × Except BoundErr Unit :=
  let oshapes := distinct [v.ocbLat.shape, v.ocbMlt.shape, v.rCorr.shape]
  let oshape := maxShape oshapes
  if (v.ocbInd.shape ≠ none ∧ (oshape = none ∨ oshape ≠ v.ocbInd.shape)) ∨ oshapes.length > 2
      ∨ (oshapes.length = 2 ∧ none ∉ oshapes) then (v, .error .inputs)
  else if v.ocbInd.shape = none then (v, .ok ())
  else if v.datInd.shape = none then ({ v with vshape := oshape }, .ok ())
  else if oshape ≠ v.vshape then (v, .error .vector)
  else (v, .ok ())

/-- `clear_data` (`ocb_scaling.py` 612-627). -/
def clearData (v : VD) : VD :=
  { v with
    ocbN := .full v.vshape none
    ocbE := .full v.vshape none
    ocbZ := .full v.vshape none
    ocbMag := .full v.vshape none
    ocbQuad := .full v.vshape 0
    vecQuad := .full v.vshape 0
    poleAngle := .full v.vshape none
    aacgmLat := .full v.vshape none
    aacgmMlt := .full v.vshape none }

/-- The arguments of the constructor (`ocb_scaling.py` 106-110). -/
structure Args where
  datInd : Arr ℤ
  ocbInd : Arr ℤ
  lat : Arr F
  lt : Arr F
  height : Arr F
  locCoord : String
  ocbLat : Arr F
  ocbMlt : Arr F
  rCorr : Arr F
  vectN : Arr F
  vectE : Arr F
  vectZ : Arr F
  vectMag : Arr F
  vectCoord : String
  scaleFunc : Option (F → F → F → F)

/-- The object before the tests of the constructor (`ocb_scaling.py` 112-129, without `vect_mag`).  `lower` is
`str.lower`.  Attributes that do not exist yet while the constructor runs hold NaN here; none is read before it is
assigned. -/
def initial (lower : String → String) (a : Args) : VD :=
  { datInd := a.datInd, ocbInd := a.ocbInd, vectN := a.vectN, vectE := a.vectE, vectZ := a.vectZ
    lat := spread a.datInd a.lat, lt := spread a.datInd a.lt, height := spread a.datInd a.height
    locCoord := lower a.locCoord, vectCoord := lower a.vectCoord, vectMag := .one none
    ocbLat := .one none, ocbMlt := .one none, rCorr := .one none, vshape := none
    ocbN := .one none, ocbE := .one none, ocbZ := .one none, ocbMag := .one none
    ocbQuad := .one 0, vecQuad := .one 0, poleAngle := .one none, aacgmLat := .one none, aacgmMlt := .one none
    unscaledR := none, scaledR := none, scaleFunc := none }

/-- Assignment of the boundary coordinates in the constructor (`ocb_scaling.py` 138-140). -/
def assignBound (a : Args) (v : VD) : VD :=
  { v with
    ocbLat := spread v.ocbInd a.ocbLat, ocbMlt := spread v.ocbInd a.ocbMlt, rCorr := spread v.ocbInd a.rCorr }

/-- The constructor after the coordinate test (`ocb_scaling.py` 134-151). -/
def finish (a : Args) (v : VD) : Except PyErr VD :=
  match testVectorShape v with
  | (_, .error e) => .error e
  | (v, .ok ()) =>
    match testBoundShape (assignBound a v) with
    | (_, .error _) => .error .valueError
    | (v, .ok ()) => .ok { clearData v with scaleFunc := a.scaleFunc }

/-- `VectorData(...)` (`ocb_scaling.py` 106-151). -/
noncomputable def construct (lower : String → String) (a : Args) : Except PyErr VD := do
  let v ← setVectMag (initial lower a) a.vectMag
  testCoords v.locCoord v.vectCoord
  finish a v

/-- Assignment `vdata.dat_ind = i` on a constructed object (`ocb_scaling.py` 488-507): the resulting state and the
outcome, since an exception leaves the object changed. -/
noncomputable def setDatInd (v : VD) (i : Arr ℤ) : VD × Except PyErr Unit :=
  let v := { v with datInd := i }
  match testVectorShape v with
  | (v, .error e) => (v, .error e)
  | (v, .ok ()) =>
    match testBoundShape v with
    | (v, .error _) => (v, .error .valueError)
    | (v, .ok ()) =>
      let v := clearData v
      match setVectMag v (.one none) with
      | .ok v => (v, .ok ())
      | .error e => (v, .error e)

/-- The recovery in the `ocb_ind` setter from boundary coordinates of another shape (`ocb_scaling.py` 529-534). -/
def unsetBound (v : VD) : VD :=
  let nan := spread v.ocbInd (.one none)
  { v with ocbLat := nan, ocbMlt := nan, rCorr := nan
           vshape := if v.datInd.shape = none then v.ocbInd.shape else v.vshape }

/-- Assignment `vdata.ocb_ind = i` on a constructed object (`ocb_scaling.py` 514-544). -/
def setOcbInd (v : VD) (i : Arr ℤ) : VD × Except PyErr Unit :=
  match testBoundShape { v with ocbInd := i } with
  | (v, .ok ()) => (clearData v, .ok ())
  | (v, .error .vector) => (v, .error .valueError)
  | (v, .error .inputs) =>
    match testBoundShape (unsetBound v) with
    | (v, .ok ()) => (clearData v, .ok ())
    | (v, .error _) => (v, .error .valueError)

/-! ## Location coordinates -/

/-- The parts of the `aacgmv2` library that the class calls; any functions.  `g2a geocentric lat lon height time` gives
magnetic latitude and local time, `a2g` geographic latitude and longitude, `mlt2lon` is `convert_mlt(..., m2a=True)`. -/
structure Aacgm where
  g2a : Bool → F → F → F → Tod → F × F
  a2g : Bool → F → F → F → Tod → F × F
  mlt2lon : F → Tod → F

/-- A number function on a float: NaN stays NaN. -/
def liftF (f : ℝ → Except PyErr ℝ) : F → Except PyErr F
  | none => .ok none
  | some x => (f x).map some

/-- The conversion of one location in `update_loc_coords` (`ocb_scaling.py` 923-981): to magnetic coordinates if
`toMag`, otherwise from magnetic coordinates, whatever the present system is. -/
noncomputable def convLoc (A : Aacgm) (toMag geoc : Bool) (lat lt height : F) (t : Tod) : Except PyErr (F × F) :=
  if toMag then do
    let lon ← liftF (slt2glon · t) lt
    return A.g2a geoc lat lon height t
  else do
    let out := A.a2g geoc lat (A.mlt2lon lt t) height t
    let lt' ← liftF (glon2slt · t) out.2
    return (out.1, lt')

/-- The shape checks of `update_loc_coords` (`ocb_scaling.py` 897-918): one location is spread over several times. -/
def growLoc (v : VD) (dtimes : Arr Tod) : Except PyErr VD :=
  match v.lt.shape, v.lat.shape, dtimes with
  | none, none, .one _ => .ok v
  | none, none, .many ts => .ok { v with
      lt := spread (.many (ts.map fun _ => 0)) v.lt
      lat := spread (.many (ts.map fun _ => 0)) v.lat
      height := spread (.many (ts.map fun _ => 0)) v.height }
  | _, _, .one _ => .ok v
  | a, b, .many ts => if a = some ts.length ∧ b = some ts.length then .ok v else .error .valueError

/-- The conversions and the assignments of `update_loc_coords` (`ocb_scaling.py` 919-986). -/
noncomputable def convAll (A : Aacgm) (toMag geoc : Bool) (v : VD) (dtimes : Arr Tod) (coord : String) :
    Except PyErr VD := do
  let ll ← v.lat.zip v.lt
  let llh ← ll.zip v.height
  let all ← llh.zip dtimes
  let out ← all.mapE fun x => convLoc A toMag geoc x.1.1.1 x.1.1.2 x.1.2 x.2
  return { v with
    lat := spread v.datInd (out.map Prod.fst), lt := spread v.datInd (out.map Prod.snd), locCoord := coord }

/-- `update_loc_coords(dtimes, coord)` (`ocb_scaling.py` 870-988).  Note the last statement: the name is stored as
given, not in lower case. -/
noncomputable def updateLoc (lower : String → String) (A : Aacgm) (v : VD) (dtimes : Arr Tod) (coord : String) :
    Except PyErr VD :=
  if lower coord ≠ v.locCoord then do
    let toMag := decide (lower coord = "magnetic")
    let geoc := if toMag then decide (v.locCoord = "geocentric") else decide (lower coord = "geocentric")
    let v ← growLoc v dtimes
    convAll A toMag geoc v dtimes coord
  else .ok v

/-! ## Scaling -/

/-- The direction of every vector in the quadrants and pole data of the object, the arguments that `scale_vector`
hands to `adjust_vector` (`ocb_scaling.py` 794-797).  Simplification: the three components share one shape, which the
constructor ensures. -/
def mkIn (x : ((F × F) × (F × F)) × ((F × ℤ) × (((F × F) × F) × ℤ))) : VIn :=
  { lt := x.1.1.1, lat := x.1.1.2, poleLt := x.1.2.1, poleLat := x.1.2.2, ang := x.2.1.1, pq := x.2.1.2
    n := x.2.2.1.1.1, e := x.2.2.1.1.2, z := x.2.2.1.2, vq := x.2.2.2 }

open Classical in
/-- `adjust_vector` for a single vector and an array of poles (`vectors.py` 517-710): in the general case the result
is built from the entries of `norm_mask` alone (lines 696-702), the entries on the meridian of their pole are dropped. -/
noncomputable def adjustMany (xs : List VIn) : Except PyErr (List VOut) :=
  if xs.any (fun x => decide x.IsNorm) then
    let vq : VIn → ℤ := if xs.any (fun x => decide (x.vq = 0)) then fun x => vectQuad x.n x.e else VIn.vq
    let pq : VIn → ℤ := if xs.any (fun x => decide (x.IsNorm ∧ x.pq = 0)) then
      fun x => poleQuad x.lt x.poleLt x.ang else VIn.pq
    if ¬ xs.any (fun x => inQuads (pq x)) then .error .valueError
    else if ¬ xs.any (fun x => inQuads (vq x)) then .error .valueError
    else .ok ((xs.filter fun x => decide x.IsNorm).map fun x => normOut false (pq x) (vq x) x)
  else .ok (xs.map specialOut)

/-- `adjust_vector` on the attributes of the object, by the shapes of the arguments. -/
noncomputable def adjust (v : VD) : Except PyErr (Arr VOut) := do
  let data ← v.lt.zip v.lat
  let pole ← v.aacgmMlt.zip v.aacgmLat
  let dp ← data.zip pole
  let aq ← v.poleAngle.zip v.ocbQuad
  let ne ← v.vectN.zip v.vectE
  let nez ← ne.zip v.vectZ
  let vec ← nez.zip v.vecQuad
  let av ← aq.zip vec
  let all ← dp.zip av
  match (all.map mkIn), nez with
  | .one x, _ => (adjustOne x).map .one
  | .many xs, .one _ => (adjustMany xs).map .many
  | .many xs, .many _ => (adjustArr xs).map .many

/-- `scale_func(value, unscaled_r, scaled_r)` with broadcasting. -/
def applyScale (f : F → F → F → F) (x u s : Arr F) : Except PyErr (Arr F) := do
  let us ← u.zip s
  let xus ← x.zip us
  return xus.map fun y => f y.1 y.2.1 y.2.2

/-- `np.full(shape=(), fill_value=x)`: an array of one entry gives that entry, a longer one cannot be assigned. -/
def fillOne : Arr F → Except PyErr (Arr F)
  | .one a => .ok (.one a)
  | .many [a] => .ok (.one a)
  | .many _ => .error .valueError

/-- `scale_vector` (`ocb_scaling.py` 768-821).  For a single vector the scale function is given the components before
the rotation (lines 801-809).  The attributes `unscaled_r` and `scaled_r` are missing before `set_ocb`. -/
noncomputable def scaleVector (v : VD) : Except PyErr VD :=
  if v.lat.allNan ∨ v.lt.allNan then .error .valueError
  else if v.aacgmMlt.allNan then .error .valueError
  else if v.poleAngle.allNan then .error .valueError
  else do
    let out ← adjust v
    let n := out.map (·.1)
    let e := out.map (·.2.1)
    let z := out.map (·.2.2)
    let (n, e, z) ← (match v.scaleFunc with
      | none => .ok (n, e, z)
      | some f =>
        match v.unscaledR, v.scaledR with
        | some u, some s => (match out with
          | .one _ => do
            let n ← applyScale f v.vectN u s
            let n ← fillOne n
            let e ← applyScale f v.vectE u s
            let e ← fillOne e
            let z ← applyScale f v.vectZ u s
            let z ← fillOne z
            return (n, e, z)
          | .many _ => do
            let n ← applyScale f n u s
            let e ← applyScale f e u s
            let z ← applyScale f z u s
            return (n, e, z))
        | _, _ => .error .attributeError)
    let m ← magArr n e z
    return { v with ocbN := n, ocbE := e, ocbZ := z, ocbMag := m }

/-- `calc_vec_pole_angle` of `vectors.py` for local times and latitudes of data and pole: the code for single values if
all are single, that for arrays otherwise. -/
noncomputable def poleAngles : Arr ((F × F) × (F × F)) → Except PyErr (Arr F)
  | .one x => (Vec.poleAngle x.1.1 x.1.2 x.2.1 x.2.2).map Arr.one
  | .many xs => (Ocb.mapE (fun x => poleAngleEntry x.1.1 x.1.2 x.2.1 x.2.2) xs).map Arr.many

/-- The method `calc_vec_pole_angle` (`ocb_scaling.py` 823-868).  The casts at lines 845-846 go through the setters,
which spread a single location over the data indices. -/
noncomputable def calcPoleAngle (v : VD) : Except PyErr VD :=
  if v.locCoord ≠ "magnetic" then .error .valueError
  else
  let v := { v with lt := spread v.datInd v.lt, lat := spread v.datInd v.lat }
  if v.lt.allNan then .error .valueError
  else if v.lat.allNan then .error .valueError
  else if v.aacgmMlt.allNan then .error .valueError
  else if v.aacgmLat.allNan then .error .valueError
  else do
    let data ← v.lt.zip v.lat
    let pole ← v.aacgmMlt.zip v.aacgmLat
    let all ← data.zip pole
    let ang ← poleAngles all
    return { v with poleAngle := ang }

/-- `define_quadrants` (`ocb_scaling.py` 725-766). -/
noncomputable def defineQuadrants (v : VD) : Except PyErr VD :=
  if v.locCoord ≠ "magnetic" ∨ v.vectCoord ≠ "magnetic" then .error .valueError
  else if v.aacgmMlt.allNan then .error .valueError
  else if v.lt.allNan then .error .valueError
  else if v.poleAngle.allNan then .error .valueError
  else do
    let lts ← v.lt.zip v.aacgmMlt
    let all ← lts.zip v.poleAngle
    let ne ← v.vectN.zip v.vectE
    return { v with
      ocbQuad := all.map fun x => poleQuad x.1.1 x.1.2 x.2
      vecQuad := ne.map fun x => vectQuad x.1 x.2 }

/-- What `set_ocb` uses of a boundary object: hemisphere, cursor, times and, per record, radius and centre of the
circle; `normal rec lat lt coord height` is `normal_coord` with the cursor at `rec`: what the call leaves in the
latitude array it was given (C31), then boundary latitude, local time and radius correction; any function.  `pairs = some l` is a `DualBoundary` with `ocb_ind = l`, whose `r`, `phi_cent`, `r_cent`
and `boundary_lat` belong to its member `ocb`. -/
structure Bnd where
  hem : ℤ
  recInd : ℤ
  dtime : List Tod
  blat : ℝ
  r : List ℝ
  phiCent : List ℝ
  rCent : List ℝ
  pairs : Option (List ℤ)
  normal : ℤ → Arr F → Arr F → String → Arr F → Except PyErr (Arr F × Arr F × Arr F × Arr F)

/-- `[f(x) for x in ind]` for an index array. -/
def idxArr {α : Type*} (l : List α) (ind : Arr ℤ) : Except PyErr (Arr α) := ind.mapE (pyIdx l)

/-- The entry of a 0-d result, for an assignment `self.ocb_lat[i] = value`. -/
def single {α : Type*} : Arr α → Except PyErr α
  | .one a => .ok a
  | .many [a] => .ok a
  | .many _ => .error .valueError

/-- The loop over the boundary indices of `set_ocb` (`ocb_scaling.py` 666-680): index position `i`, remaining
indices. -/
noncomputable def normalLoop (b : Bnd) (v : VD) : ℕ → List ℤ → Except PyErr VD
  | _, [] => .ok v
  | i, k :: ks => do
    let (lat', out) ← (if v.ocbInd.shape = v.datInd.shape then
        match v.lat.entries[i]?, v.lt.entries[i]?, v.height.entries[i]? with
        | some la, some lt, some h => (b.normal k (.one la) (.one lt) v.locCoord (.one h)).map fun o => (v.lat, o.2)
        | _, _, _ => .error .indexError
      else b.normal k v.lat v.lt v.locCoord v.height)
    let la ← single out.1
    let ml ← single out.2.1
    let rc ← single out.2.2
    let put (x : Arr F) (y : F) : Arr F := match x with
      | .one a => .one a
      | .many l => .many (l.set i y)
    normalLoop b { v with
      lat := lat', ocbLat := put v.ocbLat la, ocbMlt := put v.ocbMlt ml, rCorr := put v.rCorr rc } (i + 1) ks

/-- The three conditions tested at lines 652 and 683. -/
def coordsMissing (v : VD) : Bool := v.ocbLat.allNan || v.ocbMlt.allNan || v.rCorr.allNan

/-- The part of `set_ocb` that fills in the boundary coordinates when they are missing (`ocb_scaling.py` 650-680). -/
noncomputable def fillCoords (b : Bnd) (v : VD) : Except PyErr (VD × ℤ) :=
  if coordsMissing v then
    match v.ocbInd with
    | .one k => do
      let (lat', out) ← b.normal k v.lat v.lt v.locCoord v.height
      return ({ v with
        lat := lat', ocbLat := spread v.ocbInd out.1, ocbMlt := spread v.ocbInd out.2.1, rCorr := spread v.ocbInd out.2.2 }, k)
    | .many ks => do
      let v' ← normalLoop b v 0 ks
      return (v', ks.getLastD b.recInd)
  else .ok (v, b.recInd)

/-- `get_pole_loc` on the records selected by an index array. -/
noncomputable def poleArr (phi rc : Arr ℝ) : Except PyErr (Arr (ℝ × ℝ)) := do
  let pr ← phi.zip rc
  pr.mapE fun x => getPoleLoc x.1 x.2

/-- The records of the circles that belong to the indices (`ocb_scaling.py` 687-690). -/
def circleInd (b : Bnd) (v : VD) : Except PyErr (Arr ℤ) :=
  match b.pairs with
  | none => .ok v.ocbInd
  | some l => idxArr l v.ocbInd

/-- The part of `set_ocb` that locates the boundary's pole and the two radii (`ocb_scaling.py` 687-701). -/
noncomputable def poleStep (b : Bnd) (v : VD) : Except PyErr VD := do
  let ind ← circleInd b v
  let r ← idxArr b.r ind
  let rr ← r.zip v.rCorr
  let unscaled : Arr F := rr.map fun x => x.2.map (x.1 + ·)
  let phi ← idxArr b.phiCent ind
  let rc ← idxArr b.rCent ind
  let pole ← poleArr phi rc
  return { v with
    unscaledR := some unscaled
    scaledR := some (.full unscaled.shape (some (90 - |b.blat|)))
    aacgmMlt := pole.map fun p => some p.1
    aacgmLat := pole.map fun p => some p.2 }

/-- Assignment of the scale function in `set_ocb` (`ocb_scaling.py` 710-717): only if none is set. -/
def pickScale (f : Option (F → F → F → F)) (v : VD) : VD :=
  match v.scaleFunc with
  | none => { v with scaleFunc := f }
  | some _ => v

/-- The last part of `set_ocb`: angle, quadrants, scale function, rotation (`ocb_scaling.py` 703-721). -/
noncomputable def rotateStep (f : Option (F → F → F → F)) (v : VD) : Except PyErr VD := do
  let v ← calcPoleAngle v
  if v.poleAngle.allNan then return v
  else do
    let v ← defineQuadrants v
    scaleVector (pickScale f v)

/-- The times for which `set_ocb` converts the vectors (`ocb_scaling.py` 646-647): of the record under the cursor for
a single index, of the indexed records for an array. -/
def timesOf (b : Bnd) (v : VD) : Except PyErr (Arr Tod) :=
  match v.ocbInd with
  | .one _ => (pyIdx b.dtime b.recInd).map Arr.one
  | .many _ => idxArr b.dtime v.ocbInd

/-- `set_ocb(ocb, scale_func)` (`ocb_scaling.py` 629-723): the new state of the object and of the boundary's cursor.
`conv` is `update_vect_coords_to_mag` at the given times for vectors that are not magnetic; vectors that are magnetic
it leaves alone (line 1010). -/
noncomputable def setOcb (conv : VD → Arr Tod → ℤ → Except PyErr VD) (b : Bnd) (f : Option (F → F → F → F))
    (v : VD) : Except PyErr (VD × ℤ) := do
  let dtime ← timesOf b v
  let v ← (if v.vectCoord ≠ "magnetic" then conv v dtime b.hem else .ok v)
  let (v, rec') ← fillCoords b v
  if coordsMissing v then return (v, rec')
  else do
    let v ← poleStep b v
    let v ← rotateStep f v
    return (v, rec')

end Ocb.Scale
