import Mathlib.Analysis.SpecialFunctions.Trigonometric.Basic
import Verif.Model.Time

/-!
# Model of `ocbpy/ocb_correction.py`

The radius corrections as functions of the magnetic local time, over the reals.  `lower` is `str.lower`; any function.
-/

set_option autoImplicit false

namespace Ocb.Corr

open Ocb.Time

/-- `circular(mlt, r_add)` (`ocb_correction.py` 25-46) on a list of local times, NaN included. -/
def circular (mlt : List (Option ℝ)) (rAdd : ℝ) : List ℝ := mlt.map fun _ => rAdd

/-- The coefficients `a`, `e`, `t` of the ellipse by method (`ocb_correction.py` 77-78). -/
noncomputable def ellCoeff (method : String) : Option (ℝ × ℝ × ℝ) :=
  if method = "median" then some (4.01, 0.55, -0.92)
  else if method = "gaussian" then some (4.41, 0.51, -0.95)
  else none

/-- Lines 83-89 of `elliptical`. -/
noncomputable def ellFormula (a e t mltRad : ℝ) : ℝ := -(a * (1 - e ^ 2) / (1 + e * Real.cos (mltRad - t)))

/-- `elliptical(mlt, instrument, method)` (`ocb_correction.py` 49-89) for one number. -/
noncomputable def elliptical (lower : String → String) (mlt : ℝ) (instrument method : String) : Except PyErr ℝ :=
  if lower instrument ≠ "ampere" then .error .valueError
  else match ellCoeff (lower method) with
    | none => .error .valueError
    | some (a, e, t) => do
      let mltRad ← hr2rad mlt (2 * Real.pi)
      return ellFormula a e t mltRad

/-- The harmonic coefficients by instrument and method (`ocb_correction.py` 117-138). -/
noncomputable def harmCoeff (inst method : String) : Option (ℝ × (ℝ × ℝ) × (ℝ × ℝ) × (ℝ × ℝ) × (ℝ × ℝ) × (ℝ × ℝ) × (ℝ × ℝ)) :=
  if inst = "ampere" then
    if method = "median" then
      some (3.31000535, (-0.5452934, -1.24389141), (2.42619653, -0.66677988), (-1.03467488, -0.30763009),
        (0.52426756, 0.04359299), (0.60201848, 0.50618522), (1.04360529, 0.25186405))
    else if method = "gaussian" then
      some (3.80100827, (0.98555723, -3.43760943), (1.85084271, -0.36730751), (-0.81975654, -1.02823832),
        (1.30637288, -0.53599218), (0.40380183, -1.22462708), (-1.2733629, -0.62743381))
    else none
  else if inst = "si12" then
    if method = "ocb" then
      some (0.0405, (-1.5078, 1), (0.5095, 1), (0.9371, 1), (0.0708, 1), (0, 1), (0, 1))
    else if method = "eab" then
      some (-0.1447, (-1.9779, 1), (2.6799, 1), (0.5778, 1), (-1.2297, 1), (0, 1), (0, 1))
    else none
  else if inst = "si13" then
    if method = "ocb" then
      some (0.5797, (-0.6837, 1), (-0.5020, 1), (0.2971, 1), (-0.4173, 1), (0, 1), (0, 1))
    else if method = "eab" then
      some (0.2500, (-2.9931, 1), (0.8818, 1), (0.8511, 1), (-0.6300, 1), (0, 1), (0, 1))
    else none
  else if inst = "wic" then
    if method = "ocb" then
      some (1.0298, (-1.1249, 1), (-0.7380, 1), (0.1838, 1), (-0.6171, 1), (0, 1), (0, 1))
    else if method = "eab" then
      some (-0.4935, (-2.1186, 1), (0.3188, 1), (0.5749, 1), (-0.3118, 1), (0, 1), (0, 1))
    else none
  else none

/-- Lines 151-166 of `harmonic`. -/
noncomputable def harmFormula (c : ℝ × (ℝ × ℝ) × (ℝ × ℝ) × (ℝ × ℝ) × (ℝ × ℝ) × (ℝ × ℝ) × (ℝ × ℝ)) (x : ℝ) : ℝ :=
  match c with
  | (c0, (c1, p1), (c2, p2), (c3, p3), (c4, p4), (c5, p5), (c6, p6)) =>
    -(c0 + c1 * Real.cos (x + p1) + c2 * Real.sin (x + p2) + c3 * Real.cos (2 * (x + p3))
      + c4 * Real.sin (2 * (x + p4)) + c5 * Real.cos (3 * (x + p5)) + c6 * Real.sin (3 * (x + p6)))

/-- `harmonic(mlt, instrument, method)` (`ocb_correction.py` 92-166) for one number.  Simplification: the check of the
instrument and that of the method, which raise the same exception, are one. -/
noncomputable def harmonic (lower : String → String) (mlt : ℝ) (instrument method : String) : Except PyErr ℝ :=
  match harmCoeff (lower instrument) (lower method) with
  | none => .error .valueError
  | some c => do
    let x ← hr2rad mlt (2 * Real.pi)
    return harmFormula c x

end Ocb.Corr
