import Mathlib.Algebra.Order.Floor.Ring
import Mathlib.Algebra.Order.Field.Basic
import Mathlib.Analysis.SpecialFunctions.Trigonometric.Basic
import Mathlib.Tactic.Linarith
import Mathlib.Tactic.FieldSimp
import Mathlib.Tactic.Ring
import Verif.Model.Basic

/-!
# Model of `ocbpy/ocb_time.py`: cyclic ranges and angle/hour conversions
-/

set_option autoImplicit false

namespace Ocb.Time

section FixRange

variable {K : Type*} [Field K] [LinearOrder K]

/-- First loop of `fix_range` for one number: subtract `r` while the value is at or above `mx`.
(`ocb_time.py` 437-443.)  The guard `0 < r` is the check made before the loops (line 432); without it
the loop would not stop. -/
def subLoop [FloorRing K] [IsStrictOrderedRing K] (mx r v : K) : K :=
  if 0 < r ∧ mx ≤ v then subLoop mx r (v - r) else v
termination_by (⌊(v - mx) / r⌋ + 1).toNat
decreasing_by
  rename_i h
  obtain ⟨hr, hv⟩ := h
  have h1 : (v - r - mx) / r = (v - mx) / r - 1 := by field_simp; ring
  have h2 : 0 ≤ ⌊(v - mx) / r⌋ := Int.floor_nonneg.2 (div_nonneg (by linarith) hr.le)
  rw [h1, Int.floor_sub_one]
  omega

/-- Second loop of `fix_range` for one number: add `r` while the value is below `mn`.
(`ocb_time.py` 445-450.) -/
def addLoop [FloorRing K] [IsStrictOrderedRing K] (mn r v : K) : K :=
  if 0 < r ∧ v < mn then addLoop mn r (v + r) else v
termination_by ⌈(mn - v) / r⌉.toNat
decreasing_by
  rename_i h
  obtain ⟨hr, hv⟩ := h
  have h1 : (mn - (v + r)) / r = (mn - v) / r - 1 := by field_simp; ring
  have h2 : 0 < ⌈(mn - v) / r⌉ := Int.ceil_pos.2 (div_pos (by linarith) hr)
  rw [h1, Int.ceil_sub_one]
  omega

/-- What `fix_range` computes for one finite number once its argument checks have passed. -/
def fixVal [FloorRing K] [IsStrictOrderedRing K] (v mn mx r : K) : K := addLoop mn r (subLoop mx r v)

/-- `fix_range(v, mn, mx, val_range)` for one finite number (`ocb_time.py` 399-452).
`vr = none` is `val_range=None`.  Order of the checks as in the code: limits first, period second. -/
def fixRange [FloorRing K] [IsStrictOrderedRing K] (v mn mx : K) (vr : Option K) : Except PyErr K :=
  if mx ≤ mn then .error .valueError
  else
    let r := vr.getD (mx - mn)
    if r ≤ 0 then .error .valueError else .ok (fixVal v mn mx r)

/-- `~isnan(x) & (x >= mx)`: the mask of the first loop, per entry. -/
def isHigh (mx : K) (x : Fl K) : Bool := Fl.le (.fin mx) x

/-- `~isnan(x) & (x < mn)`: the mask of the second loop, per entry. -/
def isLow (mn : K) (x : Fl K) : Bool := Fl.lt x (.fin mn)

/-- Float subtraction of a finite period; NaN and the infinities absorb it. -/
def subFl (r : K) : Fl K → Fl K
  | .fin x => .fin (x - r)
  | y => y

/-- Float addition of a finite period. -/
def addFl (r : K) : Fl K → Fl K
  | .fin x => .fin (x + r)
  | y => y

/-- One pass of the body of the first loop: `fixed_vals[ibad] -= val_range`. -/
def highPass (mx r : K) (xs : List (Fl K)) : List (Fl K) :=
  xs.map fun x => if isHigh mx x then subFl r x else x

/-- One pass of the body of the second loop: `fixed_vals[ibad] += val_range`. -/
def lowPass (mn r : K) (xs : List (Fl K)) : List (Fl K) :=
  xs.map fun x => if isLow mn x then addFl r x else x

/-- `fix_range` on an array, as a relation between the call and its outcome (`ocb_time.py` 399-452).
The two `while np.any(ibad)` loops run on the whole array; a call that never returns has no outcome.
Simplification: limits and period are finite, entries are of a float type (numpy would refuse to store a
float in an integer array). -/
def FixRangeArr (xs : List (Fl K)) (mn mx : K) (vr : Option K) (out : Except PyErr (List (Fl K))) : Prop :=
  if mx ≤ mn then out = .error .valueError
  else
    let r := vr.getD (mx - mn)
    if r ≤ 0 then out = .error .valueError
    else ∃ ys zs, While (fun s => s.any (isHigh mx)) (highPass mx r) xs ys ∧
      While (fun s => s.any (isLow mn)) (lowPass mn r) ys zs ∧ out = .ok zs

end FixRange

section Conversions

/-- `deg2hr` (`ocb_time.py` 205-226) for one finite number. -/
noncomputable def deg2hr (lon : ℝ) : Except PyErr ℝ := fixRange (lon / 15) 0 24 none

/-- `hr2deg` (`ocb_time.py` 229-268) for one finite number. The warning is dropped. -/
noncomputable def hr2deg (lt : ℝ) (minDeg maxDeg : ℝ) : Except PyErr ℝ :=
  let lon := lt * 15
  let minDeg := if maxDeg - minDeg < 360 then maxDeg - 360 else minDeg
  fixRange lon minDeg maxDeg (some 360)

/-- `hr2rad` (`ocb_time.py` 271-295) for one finite number. -/
noncomputable def hr2rad (lt maxRange : ℝ) : Except PyErr ℝ :=
  fixRange (lt * Real.pi / 12) (maxRange - 2 * Real.pi) maxRange none

/-- `rad2hr` (`ocb_time.py` 298-319) for one finite number. -/
noncomputable def rad2hr (lon : ℝ) : Except PyErr ℝ := fixRange (lon * 12 / Real.pi) 0 24 none

/-- The time-of-day fields of a `datetime.datetime`. -/
structure Tod where
  hour : ℕ
  minute : ℕ
  second : ℕ
  micro : ℕ
  deriving DecidableEq, Repr

/-- The field limits that the `datetime` constructor enforces. -/
def Tod.Valid (t : Tod) : Prop := t.hour < 24 ∧ t.minute < 60 ∧ t.second < 60 ∧ t.micro < 1000000

/-- `datetime2hr` (`ocb_time.py` 322-340). -/
noncomputable def datetime2hr (t : Tod) : ℝ :=
  t.hour + t.minute / 60 + (t.second + t.micro * (1 / 1000000)) / 3600

/-- `slt2glon` (`ocb_time.py` 343-370) for one finite number. -/
noncomputable def slt2glon (slt : ℝ) (t : Tod) : Except PyErr ℝ := do
  let glon ← hr2deg (slt - datetime2hr t) (-180) 360
  fixRange glon (-180) 360 (some 360)

/-- `glon2slt` (`ocb_time.py` 373-396) for one finite number. -/
noncomputable def glon2slt (glon : ℝ) (t : Tod) : Except PyErr ℝ := do
  let lt ← deg2hr glon
  fixRange (lt + datetime2hr t) 0 24 none

end Conversions

end Ocb.Time
