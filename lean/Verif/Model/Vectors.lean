import Mathlib.Analysis.SpecialFunctions.Trigonometric.Inverse
import Verif.Model.Coord

/-!
# Model of `ocbpy/vectors.py`

Directions, quadrants and the rotation of a vector from one polar frame to another.
NaN is `none`; every number is a finite real.
-/

set_option autoImplicit false

namespace Ocb.Vec

open Ocb.Time Ocb.Coord

/-- `get_pole_loc(phi_cent, r_cent)` (`vectors.py` 16-45), one pair of numbers: local time and latitude of the
destination pole. -/
noncomputable def getPoleLoc (phiCent rCent : ℝ) : Except PyErr (ℝ × ℝ) := do
  let lt ← deg2hr phiCent
  return (lt, 90 - rCent)

/-- `np.sqrt`: NaN for a negative argument. -/
noncomputable def npSqrt (x : ℝ) : Option ℝ := if x < 0 then none else some (√x)

/-- `np.arccos`: NaN outside `[-1, 1]`. -/
noncomputable def npArccos (x : ℝ) : Option ℝ := if x < -1 ∨ 1 < x then none else some (Real.arccos x)

/-- The spherical-triangle part of `calc_vec_pole_angle` (`vectors.py` 113-142) for one triple of numbers:
longitude difference in radians, data latitude and pole latitude in degrees.  A zero denominator gives NaN or an
infinity, and the arc cosine of either is NaN. -/
noncomputable def triangleAngle (delLong dataLat poleLat : ℝ) : Option ℝ :=
  let hem := (SignType.sign poleLat : ℝ)
  let radPole := hem * Real.pi * (1 / 2)
  let delPole := hem * (radPole - radians poleLat)
  let delVect := hem * (radPole - radians dataLat)
  let delDest := atan2
    (√((Real.cos (radians poleLat) * Real.sin delLong) ^ 2
      + (Real.cos (radians dataLat) * Real.sin (radians poleLat)
        - Real.sin (radians dataLat) * Real.cos (radians poleLat) * Real.cos delLong) ^ 2))
    (Real.sin (radians dataLat) * Real.sin (radians poleLat)
      + Real.cos (radians dataLat) * Real.cos (radians poleLat) * Real.cos delLong)
  let sumSides := 1 / 2 * (delVect + delDest + delPole)
  let den := Real.sin delVect * Real.sin delDest
  if den = 0 then none
  else do
    let half ← npSqrt (Real.sin sumSides * Real.sin (sumSides - delPole) / den)
    let a ← npArccos half
    return degrees (2 * a)

/-- `np.asarray(pole_lt) - np.asarray(data_lt)` for one pair. -/
noncomputable def ltDiff : Option ℝ → Option ℝ → Option ℝ
  | some p, some d => some (p - d)
  | _, _ => none

/-- `a > b` for Python floats: false when either is NaN. -/
noncomputable def gtF : Option ℝ → Option ℝ → Bool
  | some a, some b => decide (b < a)
  | _, _ => false

/-- `a <= b` for Python floats: false when either is NaN. -/
noncomputable def leF : Option ℝ → Option ℝ → Bool
  | some a, some b => decide (a ≤ b)
  | _, _ => false

/-- `calc_vec_pole_angle` for four single values (`vectors.py` 48-142, the branch at line 92).  On the meridian of
the pole the comparison is Python's, so a NaN latitude there falls into the `else` branch. -/
noncomputable def poleAngle (dataLt dataLat poleLt poleLat : Option ℝ) : Except PyErr (Option ℝ) :=
  match ltDiff poleLt dataLt with
  | none => .ok none
  | some d => do
    let dl ← hr2rad d Real.pi
    if dl = -Real.pi ∨ dl = 0 ∨ dl = Real.pi then
      return some (if gtF (dataLat.map abs) (poleLat.map abs) then 180 else 0)
    else
      match dataLat, poleLat with
      | some a, some b => return triangleAngle dl a b
      | _, _ => return none

/-- One entry of `calc_vec_pole_angle` for arrays (`vectors.py` 48-142, the branch at line 99).  Here a NaN latitude
is in neither of the two special masks. -/
noncomputable def poleAngleEntry (dataLt dataLat poleLt poleLat : Option ℝ) : Except PyErr (Option ℝ) :=
  match ltDiff poleLt dataLt with
  | none => .ok none
  | some d => do
    let dl ← hr2rad d Real.pi
    let flat := decide (dl = 0 ∨ |dl| = Real.pi) && gtF (dataLat.map abs) (poleLat.map abs)
    let zero := decide (dl = 0 ∨ |dl| = Real.pi) && leF (dataLat.map abs) (poleLat.map abs)
    if zero then return some 0
    else if flat then return some 180
    else
      match dataLat, poleLat with
      | some a, some b => return triangleAngle dl a b
      | _, _ => return none

/-- Second loop of `define_pole_quadrants` (`vectors.py` 188-198) for one number: bring the difference below 24 in
absolute value. -/
noncomputable def largeLoop (x : ℝ) : ℝ :=
  if 24 ≤ |x| then largeLoop (x - 24 * (SignType.sign x : ℝ)) else x
termination_by ⌊|x| / 24⌋.toNat
decreasing_by
  rename_i h
  have h2 : |x - 24 * (SignType.sign x : ℝ)| = |x| - 24 := by
    rcases lt_trichotomy x 0 with hx | hx | hx
    · rw [abs_of_neg hx] at h ⊢
      rw [sign_neg hx]
      simp only [SignType.coe_neg, SignType.coe_one]
      rw [abs_of_nonpos (by linarith)]; ring
    · subst hx; simp at h; linarith
    · rw [abs_of_pos hx] at h ⊢
      rw [sign_pos hx]
      simp only [SignType.coe_one]
      rw [abs_of_nonneg (by linarith)]; ring
  have h3 : (|x| - 24) / 24 = |x| / 24 - 1 := by ring
  have h4 : (1 : ℤ) ≤ ⌊|x| / 24⌋ := Int.le_floor.2 (by push_cast; linarith)
  rw [h2, h3, Int.floor_sub_one]
  omega

/-- `define_pole_quadrants(data_lt, pole_lt, pole_angle)` (`vectors.py` 145-228), one entry.  The single-value and
array forms treat an entry alike: the loops run until no entry is out of range and leave the others alone. -/
noncomputable def poleQuad (dataLt poleLt poleAng : Option ℝ) : ℤ :=
  match ltDiff poleLt dataLt, poleAng with
  | some d, some a =>
    let d := largeLoop (addLoop 0 24 d)
    if a < 90 ∧ d < 12 then 1
    else if a < 90 ∧ 12 ≤ d then 2
    else if 90 ≤ a ∧ 12 ≤ d then 3
    else if 90 ≤ a ∧ d < 12 then 4
    else 0
  | _, _ => 0

/-- `define_vect_quadrants(vect_n, vect_e)` (`vectors.py` 231-286), one entry. -/
noncomputable def vectQuad (n e : Option ℝ) : ℤ :=
  match n, e with
  | some n, some e =>
    if 0 ≤ n ∧ 0 ≤ e then 1
    else if 0 ≤ n ∧ e < 0 then 2
    else if n < 0 ∧ e < 0 then 3
    else if n < 0 ∧ 0 ≤ e then 4
    else 0
  | _, _ => 0

/-- The table of `calc_dest_polar_angle` (`vectors.py` 331-399) for one entry whose angles are numbers: `pq`, `vq`
the quadrants, `b` the north azimuth, `p` the pole angle.  The assignments are made in the order of the code, each to
the entries of its mask; an entry in no mask stays NaN. -/
noncomputable def destPolarTable (pq vq : ℤ) (b p : ℝ) : Option ℝ :=
  let q (o v : ℤ) : Prop := pq = o ∧ vq = v
  let d : Option ℝ := none
  let d := if q 1 1 ∨ q 2 2 ∨ q 3 3 ∨ q 4 4 then some |b - p| else d
  let d := if q 1 2 ∨ q 1 3 ∨ q 2 1 ∨ q 2 4 ∨ q 3 1 ∨ q 4 2 then
      some (if 180 < p + b then 360 - (p + b) else p + b) else d
  let d := if q 1 4 ∨ q 2 3 then some (b - p) else d
  let d := if q 3 2 ∨ q 4 1 then some (p - b) else d
  if q 3 4 ∨ q 4 3 then some (360 - b - p) else d

/-- One entry of `calc_dest_polar_angle`: NaN in either angle takes the entry out of every mask. -/
noncomputable def destPolarEntry (pq vq : ℤ) (b p : Option ℝ) : Option ℝ :=
  match b, p with
  | some b, some p => destPolarTable pq vq b p
  | _, _ => none

/-- `np.isin(quad, np.arange(1, 5))`. -/
def inQuads (q : ℤ) : Bool := decide (1 ≤ q ∧ q ≤ 4)

/-- `calc_dest_polar_angle` for arrays (`vectors.py` 289-399): the two checks look for one defined quadrant anywhere
in the array.  A single value is the one-entry case. -/
noncomputable def destPolarAngle (xs : List (ℤ × ℤ × Option ℝ × Option ℝ)) : Except PyErr (List (Option ℝ)) :=
  if ¬ xs.any (fun x => inQuads x.1) then .error .valueError
  else if ¬ xs.any (fun x => inQuads x.2.1) then .error .valueError
  else .ok (xs.map fun x => destPolarEntry x.1 x.2.1 x.2.2.1 x.2.2.2)

/-- North sign of `calc_dest_vec_sign` (`vectors.py` 459-487), one entry with number angles. -/
noncomputable def northSign (pq vq : ℤ) (b p : ℝ) : ℝ :=
  let q (o v : ℤ) : Prop := pq = o ∧ vq = v
  if q 1 1 ∨ q 2 2 ∨ q 3 3 ∨ q 4 4
      ∨ ((q 1 4 ∨ q 2 3) ∧ b ≤ p + 90)
      ∨ ((q 1 2 ∨ q 2 1) ∧ b ≤ 90 - p)
      ∨ ((q 3 4 ∨ q 4 3) ∧ 180 - (p - 90) ≤ b)
      ∨ ((q 3 2 ∨ q 4 1) ∧ p - 90 ≤ b)
  then 1 else -1

/-- East sign of `calc_dest_vec_sign` (`vectors.py` 489-512), one entry with number angles. -/
noncomputable def eastSign (pq vq : ℤ) (b p : ℝ) : ℝ :=
  let q (o v : ℤ) : Prop := pq = o ∧ vq = v
  if q 1 4 ∨ q 2 1 ∨ q 3 2 ∨ q 4 3
      ∨ ((q 1 1 ∨ q 4 4) ∧ p ≤ b)
      ∨ ((q 3 1 ∨ q 2 4) ∧ b ≤ 180 - p)
      ∨ ((q 4 2 ∨ q 1 3) ∧ 180 - p ≤ b)
      ∨ ((q 2 2 ∨ q 3 3) ∧ b ≤ p)
  then 1 else -1

/-- One vector and its destination pole, the ten arguments of `adjust_vector` (`vectors.py` 517-518).  Quadrants are
integers here; the code also accepts other numbers, which behave like an integer outside 0-4. -/
structure VIn where
  lt : Option ℝ
  lat : Option ℝ
  n : Option ℝ
  e : Option ℝ
  z : Option ℝ
  vq : ℤ
  poleLt : Option ℝ
  poleLat : Option ℝ
  ang : Option ℝ
  pq : ℤ

/-- Adjusted north, east and vertical components. -/
abbrev VOut := Option ℝ × Option ℝ × Option ℝ

namespace VIn

/-- `zero_mask` (`vectors.py` 581). -/
def IsZero (x : VIn) : Prop := x.n = some 0 ∧ x.e = some 0

/-- `ns_mask` (`vectors.py` 582). -/
def IsNs (x : VIn) : Prop := x.ang = some 0 ∨ x.ang = some 180

/-- `norm_mask` (`vectors.py` 583). -/
def IsNorm (x : VIn) : Prop := ¬ (x.IsZero ∨ x.IsNs)

/-- `sign_mask` (`vectors.py` 620-621). -/
noncomputable def SignFlip (x : VIn) : Prop := x.ang = some 0 ∧ leF x.poleLat x.lat = true

/-- The horizontal magnitude, NaN if a component is (`vectors.py` 645-659). -/
noncomputable def vmag (x : VIn) : Option ℝ :=
  match x.n, x.e with
  | some n, some e => some (√(n ^ 2 + e ^ 2))
  | _, _ => none

/-- `base_naz_angle` at an entry of `norm_mask` (`vectors.py` 645-659).  At such an entry the magnitude is not 0. -/
noncomputable def naz (x : VIn) : Option ℝ :=
  match x.n, x.vmag with
  | some n, some v => if v = 0 then none else (npArccos (n / v)).map degrees
  | _, _ => none

end VIn

open Classical in
/-- The entries of the special cases (`vectors.py` 585-630): zero horizontal part first, aligned meridian second,
so that the second overrides the first. -/
noncomputable def specialOut (x : VIn) : VOut :=
  let o : VOut := (none, none, none)
  let o := if x.IsZero then (some 0, some 0, some 0) else o
  let o := if x.IsNs then (x.n, x.e, x.z) else o
  if x.IsNs ∧ x.SignFlip then (o.1.map (- ·), o.2.1.map (- ·), o.2.2) else o

/-- The general case at one entry (`vectors.py` 661-705), given the quadrants in force.  `nanZ` says whether the
vertical component is lost when the angle or magnitude is NaN: it is for an array of vertical components (lines
673-678), not for a single one. -/
noncomputable def normOut (nanZ : Bool) (pq vq : ℤ) (x : VIn) : VOut :=
  match destPolarEntry pq vq x.naz x.ang, x.vmag, x.naz, x.ang with
  | some d, some v, some b, some p =>
    let r := radians d
    let r := if Real.pi / 2 < r then Real.pi - r else r
    (some (northSign pq vq b p * v * Real.cos r), some (eastSign pq vq b p * v * Real.sin r), x.z)
  | _, _, _, _ => (none, none, if nanZ then none else x.z)

open Classical in
/-- `adjust_vector` for ten single values (`vectors.py` 517-710). -/
noncomputable def adjustOne (x : VIn) : Except PyErr VOut :=
  if x.IsNorm then
    let vq := if x.vq = 0 then vectQuad x.n x.e else x.vq
    let pq := if x.pq = 0 then poleQuad x.lt x.poleLt x.ang else x.pq
    if ¬ inQuads pq then .error .valueError
    else if ¬ inQuads vq then .error .valueError
    else .ok (normOut false pq vq x)
  else .ok (specialOut x)

open Classical in
/-- `adjust_vector` for ten arrays of one common length (`vectors.py` 517-710).  The quadrants are recomputed for the
whole array as soon as one entry of the general case has quadrant 0.  Calls that mix single values and arrays are
broadcast by numpy; they are in `Mixed`. -/
noncomputable def adjustArr (xs : List VIn) : Except PyErr (List VOut) :=
  if xs.any (fun x => decide x.IsNorm) then
    let vq : VIn → ℤ := if xs.any (fun x => decide (x.IsNorm ∧ x.vq = 0)) then fun x => vectQuad x.n x.e
      else VIn.vq
    let pq : VIn → ℤ := if xs.any (fun x => decide (x.IsNorm ∧ x.pq = 0)) then
      fun x => poleQuad x.lt x.poleLt x.ang else VIn.pq
    if ¬ xs.any (fun x => inQuads (pq x)) then .error .valueError
    else if ¬ xs.any (fun x => inQuads (vq x)) then .error .valueError
    else .ok (xs.map fun x => if x.IsNorm then normOut true (pq x) (vq x) x else specialOut x)
  else .ok (xs.map specialOut)

end Ocb.Vec
