import Verif.Model.PysatDual
import Verif.Model.PysatGeo

/-!
# The boundary that `add_ocb_to_data` works with, for a `DualBoundary` object and geographic coordinates

Fills the parameters of `Model/Pysat.lean` with the dual `normal_coord` of `Model/Geo.lean`.
-/

set_option autoImplicit false

namespace Ocb.Pysat

open Ocb.Files (Name)
open Ocb.Time Ocb.Coord Ocb.Scale

/-- `ocb.normal_coord(lat[iout], lt[iout], coords=loc_coord, height=height[iout])` with a `DualBoundary` for one location
and the pair `r` (`pysat_instruments.py` 462-473, `_boundary.py` 1321-1492); `times r` is the time `dtime[rec_ind]` of the
pair, which is the time that the location is converted with (`_boundary.py` 1413 and 1419-1420).  Simplifications as in
`dualNorm`. -/
noncomputable def geoDualNorm (A : Scale.Aacgm) (P : PairRun) (times : ℤ → Tod) (coords : Name) (r : ℤ) (lat lt height : V) :
    Except PyErr (V × V × V) := do
  let D ← selectPair P.obj r
  let out ← Geo.dualNormalGeo A D (times r) (P.store r lat lt) (P.fresh r lat lt) coords [(entry lat, entry lt, entry height)] false
  match out.1 with
  | [] => .error .indexError
  | o :: _ => .ok (ofEntry o.1, ofEntry o.2.1, ofEntry o.2.2.2)

/-- The package as seen by the loop for a `DualBoundary` and geographic coordinates (`pysat_instruments.py` 458-539); the
vector computation stays a parameter. -/
noncomputable def geoDualLib (A : Scale.Aacgm) (P : PairRun) (times : ℤ → Tod) (coords : Name)
    (vect : ℤ → ℕ → V → V → Init → Except PyErr (Name → V)) : Lib :=
  ⟨geoDualNorm A P times coords, vect, ocbRadius P.ocbRec, ocbScale P.obj.ocbLat⟩

end Ocb.Pysat
