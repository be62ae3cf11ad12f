import Verif.Model.Scaling
import Verif.Model.Pysat

/-!
# Model of `VectorData.__repr__` and `VectorData.__str__` (`ocbpy/ocb_scaling.py` 152-272)

The texts themselves are not built.  For `__repr__` the model gives the arguments that the text stands for when it is
evaluated, for `__str__` the values that are written, line by line.
-/

set_option autoImplicit false

namespace Ocb.Scale

open Ocb.Files (Name)

/-! ## `__repr__` -/

/-- A `VectorData` object with its two texts (`ocb_scaling.py` 113-114). -/
structure VObj where
  data : VD
  datName : Option Name
  datUnits : Option Name

/-- Where a text is evaluated, and what numpy and Python write.  `nanKnown`: the name `nan` is defined there.
`digits`: the numbers of an array once they have been written with the precision of numpy.  `nameOf`: module and name of
a function, `look`: the function that such a name stands for. -/
structure Eval where
  nanKnown : Bool
  digits : Arr F → Arr F
  nameOf : (F → F → F → F) → Name
  look : Name → Option (F → F → F → F)

/-- numpy writes an array of more than 1000 entries with dots in the middle, and an empty one with the name of its type,
which is not defined where the text is evaluated; a single value is written as it is.  Simplification: the other arrays
have the types that numpy does not mention, `int64` and `float64`. -/
def written {α : Type*} : Arr α → Bool
  | .one _ => true
  | .many l => decide (0 < l.length ∧ l.length ≤ 1000)

/-- The value of the text of an integer array; `none`: the text cannot be evaluated, or stands for something else than
an array of numbers. -/
def evalInts (x : Arr ℤ) : Option (Arr ℤ) := if written x then some x else none

/-- The value of the text of an array of floats; NaN is written `nan`. -/
def evalFloats (s : Eval) (x : Arr F) : Option (Arr F) :=
  if written x && (s.nanKnown || x.entries.all Option.isSome) then some (s.digits x) else none

/-- `out.replace('array', 'numpy.array')` (`ocb_scaling.py` 178) inside one of the texts or names.  An occurrence across
a boundary between the parts of the text is impossible: they are separated by commas, blanks and quotes. -/
def renamed (s : Name) : Name := Pysat.replace "array".toList "numpy.array".toList s

/-- The scale function in the text (`ocb_scaling.py` 156-160 and 178): outer `none` if the name is not found. -/
def evalFunc (s : Eval) : Option (F → F → F → F) → Option (Option (F → F → F → F))
  | none => some none
  | some f => (s.look (renamed (s.nameOf f))).map some

/-- The arguments in the text (`ocb_scaling.py` 162-178), apart from the name and the units. -/
def evalArgs (s : Eval) (v : VD) : Option Args := do
  let datInd ← evalInts v.datInd
  let ocbInd ← evalInts v.ocbInd
  let lat ← evalFloats s v.lat
  let lt ← evalFloats s v.lt
  let height ← evalFloats s v.height
  let ocbLat ← evalFloats s v.ocbLat
  let ocbMlt ← evalFloats s v.ocbMlt
  let rCorr ← evalFloats s v.rCorr
  let vectN ← evalFloats s v.vectN
  let vectE ← evalFloats s v.vectE
  let vectZ ← evalFloats s v.vectZ
  let vectMag ← evalFloats s v.vectMag
  let scaleFunc ← evalFunc s v.scaleFunc
  return { datInd, ocbInd, lat, lt, height, locCoord := v.locCoord, ocbLat, ocbMlt, rCorr, vectN, vectE, vectZ, vectMag,
           vectCoord := v.vectCoord, scaleFunc }

/-- `eval(repr(vdata))`: `none` if the text does not give an object. -/
noncomputable def evalRepr (s : Eval) (lower : String → String) (o : VObj) : Option VObj := do
  let a ← evalArgs s o.data
  let v ← (construct lower a).toOption
  return ⟨v, o.datName.map renamed, o.datUnits.map renamed⟩

/-! ## `__str__` -/

/-- A line of the text of an object, by the values in it.  The numbers are written with a few digits only; an index is
left out for single objects. -/
inductive Line where
  | place (coord : String) (lat lt height : F) (ind : Option ℤ)
  | bound (lat mlt : F) (ind : Option ℤ)
  | vector (coord : String) (mag n e z : F) (ind : Option ℤ)
  | result (mag n e z : F) (ind : Option ℤ)

/-- `"{:.3f}".format(x)` and `"{:d}".format(x)`: numpy formats arrays without dimension only. -/
def formatted {α : Type*} : Arr α → Except PyErr α
  | .one a => .ok a
  | .many _ => .error .typeError

/-- `x[i]`: an array without dimension has no entries to choose from. -/
def entryAt {α : Type*} (x : Arr α) (i : ℕ) : Except PyErr α :=
  match x with
  | .one _ => .error .indexError
  | .many l => match l[i]? with
    | some a => .ok a
    | none => .error .indexError

/-- `self.ocb_ind if len(self.ocb_ind.shape) == 0 else self.ocb_ind[i]` -/
def indexAt (x : Arr ℤ) (i : ℕ) : Except PyErr ℤ :=
  match x with
  | .one o => .ok o
  | x => entryAt x i

/-- `len(self.ocb_lat.shape) == 0 and np.isnan(self.ocb_lat)` (`ocb_scaling.py` 208) -/
def isSingleNan : Arr F → Bool
  | .one none => true
  | _ => false

/-- The line of the boundary coordinates at one index (`ocb_scaling.py` 208-217) -/
def boundLine (v : VD) (i : ℕ) : Except PyErr Line :=
  if isSingleNan v.ocbLat then do
    let o ← formatted v.ocbInd
    return .bound none none (some o)
  else do
    let la ← entryAt v.ocbLat i
    let ml ← entryAt v.ocbMlt i
    let o ← indexAt v.ocbInd i
    return .bound la ml (some o)

/-- The two lines of one location (`ocb_scaling.py` 207-221) -/
def placeLines (v : VD) (x : ℤ × ℕ) : Except PyErr (List Line) := do
  let b ← boundLine v x.2
  let la ← entryAt v.lat x.2
  let lt ← entryAt v.lt x.2
  let h ← entryAt v.height x.2
  return [.place v.locCoord la lt h (some x.1), b]

/-- The lines of a single location and a single boundary (`ocb_scaling.py` 195-201) -/
def placeOne (v : VD) : Except PyErr (List Line) := do
  let la ← formatted v.lat
  let lt ← formatted v.lt
  let h ← formatted v.height
  let ol ← formatted v.ocbLat
  let om ← formatted v.ocbMlt
  return [.place v.locCoord la lt h none, .bound ol om none]

/-- The line of one of several boundaries of a single location (`ocb_scaling.py` 227-230) -/
def boundAt (v : VD) (x : ℤ × ℕ) : Except PyErr Line := do
  let la ← entryAt v.ocbLat x.2
  let ml ← entryAt v.ocbMlt x.2
  return .bound la ml (some x.1)

/-- The lines of a single location with several boundaries (`ocb_scaling.py` 222-230) -/
def placeBounds (v : VD) (os : List ℤ) : Except PyErr (List Line) := do
  let la ← formatted v.lat
  let lt ← formatted v.lt
  let h ← formatted v.height
  let d ← formatted v.datInd
  let bs ← Ocb.mapE (boundAt v) os.zipIdx
  return .place v.locCoord la lt h (some d) :: bs

/-- The locations in the text (`ocb_scaling.py` 194-230) -/
def strPlaces (v : VD) : Except PyErr (List Line) :=
  match v.datInd, v.ocbInd with
  | .one _, .one _ => placeOne v
  | .many ds, .one _ => (Ocb.mapE (placeLines v) ds.zipIdx).map List.flatten
  | .many ds, .many os =>
    if ds.length = os.length then (Ocb.mapE (placeLines v) ds.zipIdx).map List.flatten else placeBounds v os
  | .one _, .many os => placeBounds v os

/-- The lines of a single vector with a single result (`ocb_scaling.py` 233-241) -/
def valueOne (v : VD) (m om : F) : Except PyErr (List Line) := do
  let n ← formatted v.vectN
  let e ← formatted v.vectE
  let z ← formatted v.vectZ
  let vec := Line.vector v.vectCoord m n e z none
  if om.isSome then do
    let n' ← formatted v.ocbN
    let e' ← formatted v.ocbE
    let z' ← formatted v.ocbZ
    return [vec, .result om n' e' z' none]
  else return [vec]

/-- `vec_line` before the result is appended (`ocb_scaling.py` 245-255): for a single magnitude it is only set in the
first round and keeps its value afterwards. -/
def vecLine (v : VD) (i : ℕ) (old : List Line) : Except PyErr (List Line) :=
  match v.vectMag with
  | .one m =>
    if i = 0 then do
      let n ← formatted v.vectN
      let e ← formatted v.vectE
      let z ← formatted v.vectZ
      let d ← formatted v.datInd
      return [.vector v.vectCoord m n e z (some d)]
    else .ok old
  | .many _ => do
    let m ← entryAt v.vectMag i
    let n ← entryAt v.vectN i
    let e ← entryAt v.vectE i
    let z ← entryAt v.vectZ i
    let d ← entryAt v.datInd i
    return [.vector v.vectCoord m n e z (some d)]

/-- `vec_line` after the result has been appended (`ocb_scaling.py` 256-262) -/
def addResult (v : VD) (i : ℕ) (m : F) (l : List Line) : Except PyErr (List Line) :=
  if m.isSome then do
    let n ← entryAt v.ocbN i
    let e ← entryAt v.ocbE i
    let z ← entryAt v.ocbZ i
    let o ← indexAt v.ocbInd i
    return l ++ [.result m n e z (some o)]
  else .ok l

/-- The loop over the results (`ocb_scaling.py` 244-263) from index `i` on; `l` is `vec_line`. -/
def valueLoop (v : VD) (l : List Line) (i : ℕ) : List F → Except PyErr (List Line)
  | [] => .ok []
  | m :: ms => do
    let l ← vecLine v i l
    let l ← addResult v i m l
    let rest ← valueLoop v l (i + 1) ms
    return l ++ rest

/-- The values in the text (`ocb_scaling.py` 232-263) -/
def strValues (v : VD) : Except PyErr (List Line) :=
  match v.vectMag, v.ocbMag with
  | .one m, .one om => valueOne v m om
  | _, .many oms => valueLoop v [] 0 oms
  | .many _, .one _ => .error .typeError

/-- `str(vdata)` (`ocb_scaling.py` 182-272) without its heading and without the line of the scale function. -/
def strLines (v : VD) : Except PyErr (List Line) := do
  let a ← strPlaces v
  let b ← strValues v
  return a ++ b

end Ocb.Scale
