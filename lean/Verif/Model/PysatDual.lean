import Verif.Model.PysatVect
import Verif.Model.SetDual

/-!
# The boundary that `add_ocb_to_data` works with, for a `DualBoundary` object and magnetic coordinates

Fills the parameters of `Model/Pysat.lean` with the models of the dual `normal_coord`, of the scaling functions and of `set_ocb`.
-/

set_option autoImplicit false

namespace Ocb.Pysat

open Ocb.Files (Name)
open Ocb.Time Ocb.Coord Ocb.Scale

/-- A `DualBoundary` during the loop: the object, the boundary locations it has stored when the row is reached, and the
address of the copy of the local times.  Simplification: what is stored is a function of the pair and the location; the
claims hold for every such function. -/
structure PairRun where
  obj : DualObj
  store : ℤ → V → V → DStore
  fresh : ℤ → V → V → ℕ

/-- The record under the OCB cursor, for `ocb.ocb.r[ocb.ocb.rec_ind]` (`pysat_instruments.py` 519), when `match_data_ocb` has
moved the cursors to pair `r` -/
def PairRun.ocbRec (P : PairRun) (r : ℤ) : Option Rec :=
  match selectPair P.obj r with
  | .ok D => selRec D.ocbRecs D.ocbRecInd
  | .error _ => none

/-- `ocb.normal_coord(lat[iout], lt[iout], coords='magnetic', height=height[iout])` with a `DualBoundary`, one location:
four arrays, of which the first two and the last are kept (`pysat_instruments.py` 462-473, `_boundary.py` 1321-1492);
`overwrite` is left at False.  Simplification: for several locations at one time (xarray sets) locations without a dual
latitude can get other values than here; good locations do not depend on the others (C35). -/
noncomputable def dualNorm (P : PairRun) (r : ℤ) (lat mlt _height : V) : Except PyErr (V × V × V) := do
  let D ← selectPair P.obj r
  let out ← dualNormal D (P.store r lat mlt) (P.fresh r lat mlt) [(entry lat, entry mlt)] false
  match out.1 with
  | [] => .error .indexError
  | o :: _ => .ok (ofEntry o.1, ofEntry o.2.1, ofEntry o.2.2.2)

/-- The package as seen by the loop, for a `DualBoundary`: the radius is that of the OCB record (`pysat_instruments.py`
518-520), and the reference radius is that of the OCB (430-433).  The vector computation stays a parameter. -/
noncomputable def dualLib (P : PairRun) (vect : ℤ → ℕ → V → V → Init → Except PyErr (Name → V)) : Lib :=
  ⟨dualNorm P, vect, ocbRadius P.ocbRec, ocbScale P.obj.ocbLat⟩

/-- The vector computation of the loop with a `DualBoundary` of the hemisphere `hem`, whose pairs have the times `times`
(`pysat_instruments.py` 508-516) -/
noncomputable def dualVect (lower : String → String) (conv : VD → Arr Tod → ℤ → Except PyErr VD) (user : ℕ → F → F → F → F)
    (hem : ℤ) (times : List Tod) (P : PairRun) (r : ℤ) (i : ℕ) (lat lt : V) (d : Init) : Except PyErr (Name → V) := do
  let D ← selectPair P.obj r
  vectWith lower conv user (dualBnd D (P.store r lat lt) (P.fresh r lat lt) hem times) r i lat lt d

end Ocb.Pysat
