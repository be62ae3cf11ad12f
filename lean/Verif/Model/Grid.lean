import Verif.Model.Pysat

/-!
# Data with several dimensions

Model of `reshape_pad_mask_flatten` and of the expansion of latitude, local time and height to a common grid in
`add_ocb_to_data` (`ocbpy/instruments/pysat_instruments.py`).  An array is a list of named dimensions with their sizes
and a function from index tuples to values; `values.flatten()` is the list of the values in row-major order.  NaN is
`none`.  The xarray and numpy operations used are modelled by their documentation.
-/

set_option autoImplicit false

namespace Ocb.Grid

open Ocb.Files

variable {α : Type}

/-- All index tuples of an array, the last index running fastest -/
def indices : List ℕ → List (List ℕ)
  | [] => [[]]
  | n :: sh => (List.range n).flatMap fun i => (indices sh).map (i :: ·)

/-- All tuples with entries from the given lists, the last entry running fastest -/
def product : List (List ℕ) → List (List ℕ)
  | [] => [[]]
  | l :: ls => l.flatMap fun i => (product ls).map (i :: ·)

/-- `xarray.DataArray`: dimensions, their sizes, and values -/
structure Arr (α : Type) where
  dims : List Name
  size : List ℕ
  val : List ℕ → α

/-- The size of a dimension of an array (0 for other names) -/
def Arr.sizeOf (a : Arr α) (d : Name) : ℕ := a.size.getD (a.dims.idxOf d) 0

/-- An index along the dimension `d` for which some cell of the mask is true (the indexer of `where(mask, drop=True)`) -/
def kept (mask : Arr Bool) (d i : ℕ) : Bool :=
  (indices mask.size).any fun ix => mask.val ix && ix.getD d 0 == i

/-- `data.where(mask, drop=True).values.flatten()` for equal dimensions and sizes (`pysat_instruments.py` 606): the
indices without a true cell are dropped along each dimension; false cells that are left become NaN. -/
def whereDrop (data : Arr (Option α)) (mask : Arr Bool) : List (Option α) :=
  (product (mask.size.zipIdx.map fun nd => (List.range nd.1).filter (kept mask nd.2))).map fun ix =>
    if mask.val ix then data.val ix else none

/-- `data.transpose(*ds)` for a list with all dimensions (`pysat_instruments.py` 612) -/
def transpose (a : Arr α) (ds : List Name) : Arr α :=
  { dims := ds, size := ds.map a.sizeOf, val := fun ix => a.val (a.dims.map fun d => ix.getD (ds.idxOf d) 0) }

/-- `np.full(shape=reversed(sh), fill_value=a.transpose()).transpose()` (`pysat_instruments.py` 617-618): broadcasting
compares the last dimensions, after the two transpositions these are the first ones.  A dimension of size 1 is repeated.
A failure is reported as ValueError (619-623).  Simplification: more dimensions than wanted are always an error, also
when the ones in excess have size 1. -/
def pad (a : Arr α) (sh : List ℕ) : Except PyErr (Arr α) :=
  if a.size.length ≤ sh.length ∧ (List.zip a.size sh).all (fun nm => nm.1 == nm.2 || nm.1 == 1) then
    .ok { dims := a.dims, size := sh, val := fun ix => a.val (List.zipWith (fun n i => if n = 1 then 0 else i) a.size ix) }
  else .error .valueError

/-- `flat[mask.values].flatten()` (`pysat_instruments.py` 625): the sizes of the first dimensions have to be those of the
mask -/
def pick (a : Arr (Option α)) (mask : Arr Bool) : Except PyErr (List (Option α)) :=
  if a.size.take mask.size.length = mask.size then
    .ok (((indices mask.size).filter mask.val).flatMap fun ix =>
      (indices (a.size.drop mask.size.length)).map fun jx => a.val (ix ++ jx))
  else .error .indexError

/-- `reshape_pad_mask_flatten(data, mask)` (`pysat_instruments.py` 588-627) -/
def reshape (data : Arr (Option α)) (mask : Arr Bool) : Except PyErr (List (Option α)) :=
  if mask.dims = data.dims then
    if mask.size = data.size then .ok (whereDrop data mask) else .error .valueError
  else
    let shared := mask.dims.filter (· ∈ data.dims)
    let flat := transpose data (shared ++ data.dims.filter (· ∉ shared))
    if shared.length < mask.dims.length then do
      let flat ← pad flat mask.size
      pick flat mask
    else pick flat mask

/-! ## The grid of latitudes, local times and heights -/

/-- `x.reshape(shape)` of a flat list: the number of entries has to be the product of the sizes -/
def reshapeTo (x : List α) (shape : List ℕ) : Except PyErr (List α) :=
  if x.length = shape.prod then .ok x else .error .valueError

/-- The two results of `np.meshgrid(a, b)`, flattened: one row for each entry of `b`, one column for each entry of `a` -/
def meshgrid (a b : List α) : List α × List α := (b.flatMap fun _ => a, b.flatMap fun y => a.map fun _ => y)

/-- Latitude and local time on a common grid (`pysat_instruments.py` 347-364).  `ltShape` is the shape of the local
times, `extra` the sizes of the dimensions that only the latitudes have.  Simplification: every coordinate is a dimension. -/
def gridLat (lat lt : List α) (latShape ltShape extra : List ℕ) : Except PyErr (List α × List α) :=
  let combo := ltShape ++ extra
  if latShape ≠ combo ∨ ltShape ≠ combo then do
    let m := meshgrid lat lt
    let lat' ← reshapeTo m.1 combo
    let lt' ← reshapeTo m.2 combo
    return (lat', lt')
  else .ok (lat, lt)

/-- Latitude, local time and height on a common grid, where the height has dimensions of its own, of the sizes `extra`
(`pysat_instruments.py` 370-383); `combo` is the shape of latitude and local time. -/
def gridHeight (lat lt height : List α) (combo extra : List ℕ) : Except PyErr (List α × List α × List α) := do
  let m := meshgrid lat height
  let n := meshgrid lt height
  let lat' ← reshapeTo m.1 (combo ++ extra)
  let height' ← reshapeTo m.2 (combo ++ extra)
  let lt' ← reshapeTo n.1 (combo ++ extra)
  return (lat', lt', height')

end Ocb.Grid
