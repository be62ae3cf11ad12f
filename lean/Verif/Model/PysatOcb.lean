import Verif.Model.Pysat
import Verif.Model.Scaling

/-!
# The boundary that `add_ocb_to_data` works with, for an `OCBoundary` object and magnetic coordinates

Fills the parameters of `Model/Pysat.lean` with the models of `normal_coord`, `normal_evar` and `normal_curl_evar`.
-/

set_option autoImplicit false

namespace Ocb.Pysat

open Ocb.Files (Name)
open Ocb.Coord Ocb.Scale

/-- A cell as an entry of the coordinate computation.  Simplification: an infinity is taken like a NaN; the claims are
about finite cells. -/
def entry : V → Option ℝ
  | .fin x => some x
  | _ => none

/-- An entry of the result as a cell -/
def ofEntry : Option ℝ → V
  | some x => .fin x
  | none => .nan

/-- `ocb.normal_coord(lat[iout], lt[iout], coords='magnetic', height=height[iout])` for one location and the record `r`
(`pysat_instruments.py` 462-464, `_boundary.py` 536-640); the height is not used for magnetic coordinates.
Simplification: for several locations at one time (xarray sets) the correction of a location of the wrong hemisphere can
be a number where it is NaN here. -/
noncomputable def ocbNorm (recs : ℤ → Option Rec) (r : ℤ) (lat mlt _height : V) : Except PyErr (V × V × V) := do
  let out ← normalArr (recs r) [(entry lat, entry mlt)]
  match out.1 with
  | [] => .error .indexError
  | o :: _ => .ok (ofEntry o.1, ofEntry o.2.1, ofEntry o.2.2)

/-- `ocb.r[ocb.rec_ind] + ocb_output[ocor_name][iout]` (`pysat_instruments.py` 522-524); simplification as in `entry` -/
def ocbRadius (recs : ℤ → Option Rec) (r : ℤ) (corr : V) : V :=
  match recs r, entry corr with
  | some B, some c => .fin (B.r + c)
  | _, _ => .nan

/-- `scale_func(evar, unscaled_r, ref_r)` with `ref_r = 90.0 - abs(ocb.boundary_lat)` (`pysat_instruments.py` 430-433 and
526-539); simplification as in `entry`.  No other function is used for variables. -/
noncomputable def ocbScale (blat : ℝ) (f : Fn) (v rad : V) : Except PyErr V :=
  match entry v, entry rad with
  | some x, some u =>
    .ok (.fin (match f with
      | .evar => normalEvar x u (90 - |blat|)
      | .curl => normalCurlEvar x u (90 - |blat|)
      | _ => x))
  | _, _ => .ok .nan

/-- The package as seen by the loop, for an `OCBoundary` with the records `recs` and the reference latitude `blat`; the
vector computation stays a parameter. -/
noncomputable def ocbLib (recs : ℤ → Option Rec) (blat : ℝ) (vect : ℤ → ℕ → V → V → Init → Except PyErr (Name → V)) : Lib :=
  ⟨ocbNorm recs, vect, ocbRadius recs, ocbScale blat⟩

end Ocb.Pysat
