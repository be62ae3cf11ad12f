import Verif.Model.Dual
import Verif.Model.SmagOut

/-!
# `set_ocb` with a `DualBoundary` (`ocbpy/ocb_scaling.py` 629-723, `ocbpy/_boundary.py` 1188-1207, 1372-1492)

`Scaling` models `set_ocb` for any `normal_coord`; here is the one of a `DualBoundary`, with the cursor that `set_ocb`
sets, and the one of its OCB alone.
-/

set_option autoImplicit false

namespace Ocb.Scale

open Ocb.Time Ocb.Coord Ocb.Vec

/-- The setter of `DualBoundary.rec_ind` (`_boundary.py` 1193-1207). -/
def selectPair (D : DualObj) (k : ℤ) : Except PyErr DualObj :=
  if k < 0 then .ok { D with recInd := k, ocbRecInd := k, eabRecInd := k }
  else if D.records ≤ k then .ok { D with
    recInd := k, ocbRecInd := D.ocbRecs.length + (D.records - k), eabRecInd := D.eabRecs.length + (D.records - k) }
  else do
    let o ← pyIdx D.ocbInd k
    let e ← pyIdx D.eabInd k
    pure { D with recInd := k, ocbRecInd := o, eabRecInd := e }

/-- `normal_coord` of a `DualBoundary` with the cursor at `k`, as `set_ocb` calls it and takes it apart
(`ocb_scaling.py` 656-680, 436-460): the given latitudes are not changed (`_boundary.py` 1422 copies them), the third
array of the result is dropped.  Simplifications: two arrays or two single values; the stored boundary locations `s` are
those at the time of the call, on which the result does not depend (C36). -/
noncomputable def normalDual (D : DualObj) (s : DStore) (fresh : ℕ) (k : ℤ) (lat lt : Arr F) :
    Except PyErr (Arr F × Arr F × Arr F × Arr F) := do
  let D' ← selectPair D k
  match lat, lt with
  | .many a, .many c => do
    let (out, _) ← dualNormal D' s fresh (a.zip c) false
    pure (.many a, .many (out.map (·.1)), .many (out.map (·.2.1)), .many (out.map (·.2.2.2)))
  | .one a, .one c => do
    let (out, _) ← dualNormal D' s fresh [(a, c)] false
    let o ← pyIdx out 0
    pure (.one a, .one o.1, .one o.2.1, .one o.2.2.2)
  | _, _ => .error .valueError

/-- A `DualBoundary` with the hemisphere `hem`; `times` are the times of its pairs. -/
noncomputable def dualBnd (D : DualObj) (s : DStore) (fresh : ℕ) (hem : ℤ) (times : List Tod) : Bnd where
  hem := hem
  recInd := D.recInd
  dtime := times
  blat := D.ocbLat
  r := D.ocbRecs.map Rec.r
  phiCent := D.ocbRecs.map Rec.phiCent
  rCent := D.ocbRecs.map Rec.rCent
  pairs := some D.ocbInd
  normal := fun k lat lt _ _ => normalDual D s fresh k lat lt

/-- The OCB of a `DualBoundary` as a boundary of its own, with the cursor at `cursor`; `times` are the times of its
records. -/
noncomputable def ocbBnd (D : DualObj) (hem : ℤ) (times : List Tod) (cursor : ℤ) : Bnd where
  hem := hem
  recInd := cursor
  dtime := times
  blat := D.ocbLat
  r := D.ocbRecs.map Rec.r
  phiCent := D.ocbRecs.map Rec.phiCent
  rCent := D.ocbRecs.map Rec.rCent
  pairs := none
  normal := fun k lat lt _ _ => SmagOut.normalOf D.ocbRecs k lat lt

end Ocb.Scale
