import Mathlib.Algebra.Order.Archimedean.Real.Basic
import Mathlib.Algebra.Order.Round
import Mathlib.Data.Int.Log
import Mathlib.Tactic.Linarith
import Mathlib.Tactic.NormNum
import Verif.Model.Basic
import Verif.Model.Time
import Verif.Model.TimeText

/-!
# The number functions of `ocbpy/ocb_time.py` with the rounding of double precision

`Verif.Model.Time` and `Verif.Model.TimeText` compute without rounding.  Here every sum, difference, product and quotient
is rounded to a double, as Python and numpy do.
-/

set_option autoImplicit false

namespace Ocb.Dbl

/-- The finite doubles of IEEE 754: whole multiples of a power of two, with fewer than 54 significant bits, on the grid of
the subnormal numbers.  Simplification: no largest exponent, so that nothing overflows to infinity.  The numbers of all
theorems are far below `2 ^ 1024`. -/
def IsDouble (x : ℝ) : Prop := ∃ m e : ℤ, |m| < 2 ^ 53 ∧ -1074 ≤ e ∧ x = m * 2 ^ e

/-- `r` rounds to the nearest double.  The rule for ties is left open, IEEE 754's own is `toDouble` below. -/
structure Nearest (r : ℝ → ℝ) : Prop where
  /-- the result is a double -/
  mem : ∀ x, IsDouble (r x)
  /-- no double is nearer -/
  best : ∀ x y, IsDouble y → |r x - x| ≤ |y - x|

/-- The exponent of the last bit that a double near `x` has. -/
noncomputable def lastBit (x : ℝ) : ℤ := max (Int.log 2 |x| - 52) (-1074)

/-- Rounding to the nearest double, ties to the even one: the rounding mode of Python and numpy. -/
noncomputable def toDouble (x : ℝ) : ℝ := Ocb.Text.roundEven (x / 2 ^ lastBit x) * 2 ^ lastBit x

section Time

variable (r : ℝ → ℝ)

/-- `fix_range` of one finite double (`ocb_time.py` 399-452), as a relation between the call and its outcome: a call that
never returns has no outcome.  Simplification: one value, not an array; limits and period finite. -/
def FixRange (v mn mx : ℝ) (vr : Option ℝ) (out : Except PyErr ℝ) : Prop :=
  if mx ≤ mn then out = .error .valueError
  else
    let p := vr.getD (r (mx - mn))
    if p ≤ 0 then out = .error .valueError
    else ∃ y z, While (fun s => decide (mx ≤ s)) (fun s => r (s - p)) v y ∧
      While (fun s => decide (s < mn)) (fun s => r (s + p)) y z ∧ out = .ok z

/-- The value of `numpy.pi`. -/
noncomputable def piD : ℝ := 884279719003555 / 281474976710656

/-- The value of the literal `1.0e-6` (`ocb_time.py` 338). -/
noncomputable def microD : ℝ := r (1 / 1000000)

/-- `deg2hr` (`ocb_time.py` 205-226) for one finite double. -/
def Deg2hr (lon : ℝ) (out : Except PyErr ℝ) : Prop := FixRange r (r (lon / 15)) 0 24 none out

/-- `hr2deg` (`ocb_time.py` 229-268) for one finite double. The warning is dropped. -/
noncomputable def Hr2deg (lt minDeg maxDeg : ℝ) (out : Except PyErr ℝ) : Prop :=
  FixRange r (r (lt * 15)) (if r (maxDeg - minDeg) < 360 then r (maxDeg - 360) else minDeg) maxDeg (some 360) out

/-- `hr2rad` (`ocb_time.py` 271-295) for one finite double. -/
noncomputable def Hr2rad (lt maxRange : ℝ) (out : Except PyErr ℝ) : Prop :=
  FixRange r (r (r (lt * piD) / 12)) (r (maxRange - r (2 * piD))) maxRange none out

/-- `rad2hr` (`ocb_time.py` 298-319) for one finite double. -/
noncomputable def Rad2hr (lon : ℝ) (out : Except PyErr ℝ) : Prop :=
  FixRange r (r (r (lon * 12) / piD)) 0 24 none out

/-- `datetime2hr` (`ocb_time.py` 322-340). -/
noncomputable def datetime2hrD (t : Ocb.Time.Tod) : ℝ :=
  r (r (t.hour + r (t.minute / 60)) + r (r (t.second + r (t.micro * microD r)) / 3600))

/-- `slt2glon` (`ocb_time.py` 343-370) for one finite double. -/
noncomputable def Slt2glon (slt : ℝ) (t : Ocb.Time.Tod) (out : Except PyErr ℝ) : Prop :=
  ∃ glon, Hr2deg r (r (slt - datetime2hrD r t)) (-180) 360 (.ok glon) ∧ FixRange r glon (-180) 360 (some 360) out

/-- `glon2slt` (`ocb_time.py` 373-396) for one finite double. -/
noncomputable def Glon2slt (glon : ℝ) (t : Ocb.Time.Tod) (out : Except PyErr ℝ) : Prop :=
  ∃ lt, Deg2hr r glon (.ok lt) ∧ FixRange r (r (lt + datetime2hrD r t)) 0 24 none out

/-- `year_soy_to_datetime` (`ocb_time.py` 52-88).  `numpy.floor` is exact. -/
noncomputable def yearSoyD (yyyy : ℤ) (soy : ℝ) : Except PyErr ℤ :=
  let ddd := ⌊r (soy / 86400)⌋
  let day := r (soy - r (ddd * 86400))
  let hh := ⌊r (day / 3600)⌋
  let hour := r (day - r (hh * 3600))
  let mm := ⌊r (hour / 60)⌋
  let ss := r (hour - r (mm * 60))
  Ocb.Text.orValueError (Ocb.Text.strptime (Ocb.Text.decInt yyyy ++ '-' :: (Ocb.Text.decInt ⌊r (ddd + 1)⌋ ++ '-' ::
    (Ocb.Text.decInt hh ++ '-' :: (Ocb.Text.decInt mm ++ '-' :: Ocb.Text.decInt (Ocb.Text.roundEven ss)))))
    "%Y-%j-%H-%M-%S".toList)

/-- The seconds of the day are added in `convert_time` (`ocb_time.py` 183-191); `numpy.modf` and `numpy.ceil` are exact. -/
noncomputable def addSodD (t : ℤ) (sod : ℝ) : Except PyErr ℤ :=
  let sec := if 0 ≤ sod then ⌊sod⌋ else ⌈sod⌉
  let micro := sod - sec
  let t1 := t + sec * 1000000
  if Ocb.Text.stamp 1 0 0 0 0 ≤ t1 ∧ t1 ≤ Ocb.Text.maxStamp then
    if 0 < micro then
      if t1 + ⌈r (micro * 1000000)⌉ ≤ Ocb.Text.maxStamp then .ok (t1 + ⌈r (micro * 1000000)⌉)
      else .error .overflowError
    else .ok t1
  else .error .overflowError

/-- `timedelta.total_seconds()` of a difference in microseconds: Python divides the whole numbers and rounds once.
(`cycle_boundary.py` 176, 195-196, 203-204.) -/
noncomputable def totalSeconds (us : ℤ) : ℝ := r (us / 1000000)

/-- The tests of `match_data_ocb` on time differences: `sdiff < -max_tol` (`cycle_boundary.py` 178). -/
def IsEarly (tol : ℤ) (us : ℤ) : Prop := totalSeconds r us < -(tol : ℝ)

/-- `sdiff > max_tol` (`cycle_boundary.py` 182). -/
def IsLate (tol : ℤ) (us : ℤ) : Prop := (tol : ℝ) < totalSeconds r us

/-- `abs(sdiff) < abs(last_sdiff)` (`cycle_boundary.py` 198). -/
def IsCloser (us last : ℤ) : Prop := |totalSeconds r us| < |totalSeconds r last|

/-- `abs(sdiff) > max_tol` (`cycle_boundary.py` 215). -/
def IsFar (tol : ℤ) (us : ℤ) : Prop := (tol : ℝ) < |totalSeconds r us|

end Time

end Ocb.Dbl
