import Verif.Model.PysatOcb

/-!
# The vectors that `add_ocb_to_data` computes for the rows of a table, with an `OCBoundary`

Fills the parameter of `Model/PysatOcb.lean` that stands for the vector computation with the models of the `VectorData`
constructor and of `set_ocb`.
-/

set_option autoImplicit false

namespace Ocb.Pysat

open Ocb.Files (Name)
open Ocb.Time Ocb.Coord Ocb.Scale

/-- `ocbscal.normal_evar` for one entry: NaN in any argument gives NaN (`ocb_scaling.py` 1112-1141) -/
noncomputable def evarF : F → F → F → F
  | some v, some u, some s => some (normalEvar v u s)
  | _, _, _ => none

/-- `ocbscal.normal_curl_evar` for one entry (`ocb_scaling.py` 1144-1173) -/
noncomputable def curlF : F → F → F → F
  | some v, some u, some s => some (normalCurlEvar v u s)
  | _, _, _ => none

/-- A number of the dictionary.  Simplification: a text or function in the place of a number is a TypeError. -/
def numOf (d : Init) (k : Name) : Except PyErr F :=
  match d k with
  | some (.num v) => .ok (entry v)
  | _ => .error .typeError

/-- A text of the dictionary; other values have no `lower` (`ocb_scaling.py` 125-126) -/
def textOf (d : Init) (k : Name) : Except PyErr String :=
  match d k with
  | some (.text s) => .ok (String.ofList s)
  | _ => .error .attributeError

/-- The scale function of the dictionary; `user` are the functions of the caller, entry by entry. -/
noncomputable def fnOf (user : ℕ → F → F → F → F) (d : Init) : Except PyErr (Option (F → F → F → F)) :=
  match d "scale_func".toList with
  | some (.fn .evar) => .ok (some evarF)
  | some (.fn .curl) => .ok (some curlF)
  | some (.fn (.user n)) => .ok (some (user n))
  | some (.fn .none) => .ok none
  | some .none => .ok none
  | _ => .error .typeError

/-- `ocbscal.VectorData(vind, ocb.rec_ind, lat[iout], lt[iout], **vector_init)` for one row: the arguments
(`pysat_instruments.py` 478-512).  The row is an array of one index, the record a single index.  Simplifications: the
default components 0.0 are single numbers in the code, which the constructor spreads over the array
(`ocb_scaling.py` 388-400), and arrays of one here; so is the default magnitude NaN; infinities as in `entry`. -/
noncomputable def vectArgs (user : ℕ → F → F → F → F) (r : ℤ) (i : ℕ) (lat lt : V) (d : Init) : Except PyErr Args := do
  let height ← numOf d "height".toList
  let loc ← textOf d "loc_coord".toList
  let olat ← numOf d "ocb_lat".toList
  let omlt ← numOf d "ocb_mlt".toList
  let rc ← numOf d "r_corr".toList
  let n ← numOf d "vect_n".toList
  let e ← numOf d "vect_e".toList
  let z ← numOf d "vect_z".toList
  let m ← numOf d "vect_mag".toList
  let vec ← textOf d "vect_coord".toList
  let f ← fnOf user d
  return { datInd := .many [(i : ℤ)], ocbInd := .one r, lat := .many [entry lat], lt := .many [entry lt]
           height := .many [height], locCoord := loc, ocbLat := .many [olat], ocbMlt := .many [omlt], rCorr := .many [rc]
           vectN := .many [n], vectE := .many [e], vectZ := .many [z], vectMag := .many [m], vectCoord := vec
           scaleFunc := f }

/-- `ocb_output[ovattr][iout] = getattr(vout, vattr)` for a row: the value of an array of one (`pysat_instruments.py` 516) -/
def cellOf : Arr F → Except PyErr V
  | .one a => .ok (ofEntry a)
  | .many [a] => .ok (ofEntry a)
  | .many _ => .error .valueError

/-- `getattr(vout, vattr)` for the six attributes of the list `ocb_vect_attrs` (`pysat_instruments.py` 514-516) -/
def attrOf (n e z m u s : V) (a : Name) : V :=
  if a = "ocb_n".toList then n
  else if a = "ocb_e".toList then e
  else if a = "ocb_z".toList then z
  else if a = "ocb_mag".toList then m
  else if a = "unscaled_r".toList then u
  else if a = "scaled_r".toList then s
  else .nan

/-- The attributes copied to the new columns (`pysat_instruments.py` 512-516); the radii are missing as long as `set_ocb`
did not find the pole. -/
def readAttrs (w : VD) : Except PyErr (Name → V) := do
  let n ← cellOf w.ocbN
  let e ← cellOf w.ocbE
  let z ← cellOf w.ocbZ
  let m ← cellOf w.ocbMag
  match w.unscaledR, w.scaledR with
  | some u, some s => do
    let u ← cellOf u
    let s ← cellOf s
    return attrOf n e z m u s
  | _, _ => .error .attributeError

/-- What the vector computation sees of an `OCBoundary`: its circles and times, the cursor at `r`.  `normal` is
`normal_coord`, called only if the dictionary has NaN coordinates. -/
structure Circles where
  recs : List Rec
  times : List Tod
  blat : ℝ
  hem : ℤ
  normal : ℤ → Arr F → Arr F → String → Arr F → Except PyErr (Arr F × Arr F × Arr F × Arr F)

def Circles.bnd (C : Circles) (r : ℤ) : Bnd :=
  { hem := C.hem, recInd := r, dtime := C.times, blat := C.blat, r := C.recs.map Rec.r, phiCent := C.recs.map Rec.phiCent
    rCent := C.recs.map Rec.rCent, pairs := none, normal := C.normal }

/-- The record at the cursor; a cursor that is negative or too large is no record (`_boundary.py` 577-578) -/
def Circles.at (C : Circles) (r : ℤ) : Option Rec := if 0 ≤ r then C.recs[r.toNat]? else none

/-- The vector computation of the loop with the boundary `b` (`pysat_instruments.py` 508-516).  `lower` is `str.lower`,
`conv` the conversion of vectors that are not magnetic. -/
noncomputable def vectWith (lower : String → String) (conv : VD → Arr Tod → ℤ → Except PyErr VD) (user : ℕ → F → F → F → F)
    (b : Bnd) (r : ℤ) (i : ℕ) (lat lt : V) (d : Init) : Except PyErr (Name → V) := do
  let a ← vectArgs user r i lat lt d
  let v ← construct lower a
  let w ← setOcb conv b none v
  readAttrs w.1

/-- The vector computation of the loop with an `OCBoundary` (`pysat_instruments.py` 508-516) -/
noncomputable def ocbVect (lower : String → String) (conv : VD → Arr Tod → ℤ → Except PyErr VD) (user : ℕ → F → F → F → F)
    (C : Circles) (r : ℤ) : ℕ → V → V → Init → Except PyErr (Name → V) := vectWith lower conv user (C.bnd r) r

/-- The package as seen by the loop for an `OCBoundary`, vectors included. -/
noncomputable def tableLib (lower : String → String) (conv : VD → Arr Tod → ℤ → Except PyErr VD) (user : ℕ → F → F → F → F)
    (C : Circles) : Lib := ocbLib C.at C.blat (ocbVect lower conv user C)

end Ocb.Pysat
