import Mathlib.Analysis.SpecialFunctions.Trigonometric.Basic
import Verif.Model.Coord
import Verif.Model.Double

/-!
# The coordinate transforms of `OCBoundary` with the rounding of double precision

`Verif.Model.Coord` computes without rounding.  Here every sum, difference, product, quotient and square is rounded to a
double, and numpy's elementary functions are parameters with a bound on their error.
-/

set_option autoImplicit false

namespace Ocb.Dbl

open Ocb.Coord

/-- The elementary functions of numpy (external). -/
structure Lib where
  cos : ℝ → ℝ
  sin : ℝ → ℝ
  sqrt : ℝ → ℝ
  radians : ℝ → ℝ
  degrees : ℝ → ℝ
  atan2 : ℝ → ℝ → ℝ

/-- What is assumed of them: cosine and sine are within two units of the last place of numbers below one, the square root
is the nearest double (as IEEE 754 asks for), `radians` is within `2 ^ -49` and `degrees` within `2 ^ -44` for a whole turn
(numpy multiplies with the rounded constant, see `numpy_radians` and `numpy_degrees`), and `arctan2` within `2 ^ -51`, up to a
whole turn, since it may give -pi or pi on the cut depending on the sign of zero. -/
structure Lib.Ok (r : ℝ → ℝ) (L : Lib) : Prop where
  cos : ∀ x, |x| ≤ 16 → |L.cos x - Real.cos x| ≤ 1 / 2 ^ 52
  sin : ∀ x, |x| ≤ 16 → |L.sin x - Real.sin x| ≤ 1 / 2 ^ 52
  sqrt : ∀ x, 0 ≤ x → L.sqrt x = r (√x)
  radians : ∀ x, |x| ≤ 360 → |L.radians x - x * Real.pi / 180| ≤ 1 / 2 ^ 49
  degrees : ∀ x, |x| ≤ 4 → |L.degrees x - x * 180 / Real.pi| ≤ 1 / 2 ^ 44
  atan2 : ∀ x y, (x ≠ 0 ∨ y ≠ 0) → ∃ k : ℤ, |L.atan2 y x - (Ocb.Coord.atan2 y x + k * (2 * Real.pi))| ≤ 1 / 2 ^ 51
  atan2_le : ∀ x y, |L.atan2 y x| ≤ 4

variable (r : ℝ → ℝ) (L : Lib)

/-- `scalep * np.cos(...)`, `xc`, `scalen` and `xn`, or with the sine `yn` (`_boundary.py` 612-630), from the angle of the
local time.  The product with the hemisphere, 1 or -1, is exact. -/
noncomputable def normalCompD (trig : ℝ → ℝ) (B : Rec) (lat mlt th : ℝ) : ℝ :=
  r (r (r (r (90 - B.hem * lat) * trig th) - r (B.rCent * trig (L.radians B.phiCent))) *
    r (r (90 - |B.blat|) / r (B.r + B.rf mlt)))

/-- `hemisphere * (90 - np.sqrt(x**2 + y**2))` (`_boundary.py` 632 and 715). -/
noncomputable def latOfD (hem x y : ℝ) : ℝ := hem * r (90 - L.sqrt (r (r (x ^ 2) + r (y ^ 2))))

/-- `deg2hr(np.degrees(np.arctan2(y, x)))` and `fix_range(., 0, 24)` (`_boundary.py` 633-634 and 716-717). -/
def XyHoursD (x y out : ℝ) : Prop :=
  ∃ m, Deg2hr r (L.degrees (L.atan2 y x)) (.ok m) ∧ FixRange r m 0 24 none (.ok out)

/-- The OCB latitude and local time of `normal_coord` (`_boundary.py` 612-634) for one finite magnetic location of the right
hemisphere, as a relation, since `fix_range` may loop for ever. -/
def NormalD (B : Rec) (lat mlt olat omlt : ℝ) : Prop :=
  ∃ th, Hr2rad r mlt (2 * piD) (.ok th) ∧
    olat = latOfD r L B.hem (normalCompD r L L.cos B lat mlt th) (normalCompD r L L.sin B lat mlt th) ∧
    XyHoursD r L (normalCompD r L L.cos B lat mlt th) (normalCompD r L L.sin B lat mlt th) omlt

/-- `xp` or, with the sine, `yp` of `revert_coord` (`_boundary.py` 699-713). -/
noncomputable def revertCompD (trig : ℝ → ℝ) (B : Rec) (olat omlt corr : ℝ) : ℝ :=
  r (r (r (r (90 - B.hem * olat) * trig (r (r (omlt * piD) / 12))) * r (r (B.r + corr) / r (90 - B.hem * B.blat))) +
    r (B.rCent * trig (L.radians B.phiCent)))

/-- The magnetic latitude and local time of `revert_coord` (`_boundary.py` 699-717) for one finite OCB location. -/
def RevertD (B : Rec) (olat omlt corr lat mlt : ℝ) : Prop :=
  lat = latOfD r L B.hem (revertCompD r L L.cos B olat omlt corr) (revertCompD r L L.sin B olat omlt corr) ∧
    XyHoursD r L (revertCompD r L L.cos B olat omlt corr) (revertCompD r L L.sin B olat omlt corr) mlt

end Ocb.Dbl
