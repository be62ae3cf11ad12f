import Mathlib.Algebra.Order.Field.Basic
import Verif.Model.Time
import Mathlib.Data.Real.Sqrt

/-!
# The satellite track mask

Model of `satellite_track` in `ocbpy/cycle_boundary.py`.  The crossings are numpy floats (they are read from the
arrays of a boundary object), so a division by zero gives an infinity or NaN instead of an exception.
-/

set_option autoImplicit false

namespace Ocb

namespace Fl

variable {K : Type*} [Field K] [LinearOrder K]

/-- `a + b` of IEEE 754, without rounding. -/
def add : Fl K → Fl K → Fl K
  | nan, _ => nan
  | _, nan => nan
  | fin a, fin b => fin (a + b)
  | pinf, ninf => nan
  | ninf, pinf => nan
  | pinf, _ => pinf
  | _, pinf => pinf
  | ninf, _ => ninf
  | _, ninf => ninf

/-- `-a` of IEEE 754.  The sign of zero is not kept. -/
def negate : Fl K → Fl K
  | nan => nan
  | pinf => ninf
  | ninf => pinf
  | fin a => fin (-a)

/-- `a - b` of IEEE 754, without rounding. -/
def sub (a b : Fl K) : Fl K := add a (negate b)

/-- `a * b` of IEEE 754 for a finite `b`, without rounding. -/
def mul : Fl K → K → Fl K
  | nan, _ => nan
  | fin a, b => fin (a * b)
  | pinf, b => if b = 0 then nan else if 0 < b then pinf else ninf
  | ninf, b => if b = 0 then nan else if 0 < b then ninf else pinf

/-- `a / b` of IEEE 754 for finite operands, without rounding, where a zero `b` is the positive zero. -/
def div (a b : K) : Fl K :=
  if b = 0 then (if a = 0 then nan else if 0 < a then pinf else ninf) else fin (a / b)

end Fl

namespace Track

open Ocb.Time

/-- The arguments of `satellite_track` besides the points (`cycle_boundary.py` 224-225). -/
structure Args where
  x1 : ℝ
  y1 : ℝ
  x2 : ℝ
  y2 : ℝ
  hemi : ℝ
  delX : ℝ
  delY : ℝ
  past : ℝ

/-- The slope of the track (`cycle_boundary.py` 286).  `x1 - x2` of equal numbers is the positive zero. -/
noncomputable def slope (a : Args) : Fl ℝ := Fl.div (a.y1 - a.y2) (a.x1 - a.x2)

/-- `high_int` (`cycle_boundary.py` 287) -/
noncomputable def highInt (a : Args) : Fl ℝ := Fl.sub (.fin (a.y1 + a.delY)) (Fl.mul (slope a) (a.x1 + a.delX))

/-- `low_int` (`cycle_boundary.py` 288) -/
noncomputable def lowInt (a : Args) : Fl ℝ := Fl.sub (.fin (a.y1 - a.delY)) (Fl.mul (slope a) (a.x1 - a.delX))

/-- `x_in, y_in` of one point (`cycle_boundary.py` 291-293) -/
noncomputable def place (h lat mlt : ℝ) : Except PyErr (ℝ × ℝ) := do
  let rad ← hr2rad (mlt - 6) (2 * Real.pi)
  return ((90 - h * lat) * Real.cos rad, (90 - h * lat) * Real.sin rad)

/-- The first value of `good` for one point (`cycle_boundary.py` 296-299) -/
noncomputable def inBand (a : Args) (p : ℝ × ℝ) : Bool :=
  Fl.le (Fl.add (Fl.mul (slope a) p.1) (lowInt a)) (.fin p.2) &&
    Fl.le (.fin p.2) (Fl.add (Fl.mul (slope a) p.1) (highInt a))

/-- `sqrt((x - x_in)**2 + (y - y_in)**2)` (`cycle_boundary.py` 303-304) -/
noncomputable def sep (x y : ℝ) (p : ℝ × ℝ) : ℝ := Real.sqrt ((x - p.1) ^ 2 + (y - p.2) ^ 2)

/-- `lat_bound` for a crossing (`cycle_boundary.py` 312 and 317) -/
noncomputable def latBound (x y past : ℝ) : ℝ := 90 - Real.sqrt (x ^ 2 + y ^ 2) - past

/-- The final value of `good` for one point in the plane (`cycle_boundary.py` 302-319).  The code collects the
indices of the points nearer to the first and to the second crossing; the two sets are disjoint, so each point is
treated once. -/
noncomputable def keep (a : Args) (lat : ℝ) (p : ℝ × ℝ) : Bool :=
  if inBand a p then
    if sep a.x1 a.y1 p ≤ sep a.x2 a.y2 p then !decide (|lat| < latBound a.x1 a.y1 a.past)
    else !decide (|lat| < latBound a.x2 a.y2 a.past)
  else false

/-- `good` for one point -/
noncomputable def mark (a : Args) (q : ℝ × ℝ) : Except PyErr Bool := do
  let p ← place a.hemi q.1 q.2
  return keep a q.1 p

/-- `satellite_track` (`cycle_boundary.py` 224-322) for one-dimensional arrays of latitudes and local times of equal
length, given as a list of pairs.  Simplification: latitudes and local times are finite. -/
noncomputable def satTrack (a : Args) (pts : List (ℝ × ℝ)) : Except PyErr (List Bool) :=
  if a.delX < 0 ∨ a.delY < 0 then .error .valueError
  else if a.past < 0 then .error .valueError
  else if ¬(a.hemi = 1 ∨ a.hemi = -1) then .error .valueError
  else mapE (mark a) pts

end Track

end Ocb
