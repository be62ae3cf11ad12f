import Verif.Model.Geo
import Verif.Model.PysatOcb

/-!
# The boundary that `add_ocb_to_data` works with, for an `OCBoundary` object and geographic coordinates

Fills the parameters of `Model/Pysat.lean` with `normal_coord` of `Model/Geo.lean`.
-/

set_option autoImplicit false

namespace Ocb.Pysat

open Ocb.Files (Name)
open Ocb.Time Ocb.Coord

/-- `ocb.normal_coord(lat[iout], lt[iout], coords=loc_coord, height=height[iout])` for one location and the record `r`
(`pysat_instruments.py` 462-464, `_boundary.py` 536-640); `recs` gives the record and its time `dtime[rec_ind]`, which is
the time that the location is converted with (`_boundary.py` 594 and 601).  Simplifications as in `ocbNorm`. -/
noncomputable def geoNorm (A : Scale.Aacgm) (recs : ℤ → Option (Rec × Tod)) (coords : Name) (r : ℤ) (lat lt height : V) :
    Except PyErr (V × V × V) := do
  let out ← Geo.normalGeo A (recs r) coords [(entry lat, entry lt, entry height)]
  match out.1 with
  | [] => .error .indexError
  | o :: _ => .ok (ofEntry o.1, ofEntry o.2.1, ofEntry o.2.2)

/-- The package as seen by the loop (`pysat_instruments.py` 458-539), for an `OCBoundary` with the records `recs`, the
location coordinates `coords` and the reference latitude `blat`; the vector computation stays a parameter. -/
noncomputable def geoLib (A : Scale.Aacgm) (recs : ℤ → Option (Rec × Tod)) (coords : Name) (blat : ℝ)
    (vect : ℤ → ℕ → V → V → Init → Except PyErr (Name → V)) : Lib :=
  ⟨geoNorm A recs coords, vect, ocbRadius fun r => (recs r).map Prod.fst, ocbScale blat⟩

end Ocb.Pysat
