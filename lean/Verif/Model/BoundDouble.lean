import Verif.Model.Correction
import Verif.Model.CoordDouble

/-!
# The radius corrections of `ocb_correction.py` and the boundary latitudes of `OCBoundary` with the rounding of double precision
-/

set_option autoImplicit false

namespace Ocb.Dbl

open Ocb.Coord Ocb.Corr

variable (r : ℝ → ℝ) (L : Lib)

/-- Lines 84-89 of `elliptical` (`ocb_correction.py`) for one finite double.  The coefficients are decimal literals, so they
are rounded too; the change of sign is exact.  Simplification: the square of the eccentricity, a call of `pow`, is
correctly rounded. -/
noncomputable def ellFormulaD (a e t x : ℝ) : ℝ :=
  -r (r (r a * r (1 - r (r e ^ 2))) / r (1 + r (r e * L.cos (r (x - r t)))))

/-- `elliptical(mlt, instrument, method)` (`ocb_correction.py` 49-89) for one finite double, as a relation, since `fix_range`
may loop for ever. -/
def EllipticalD (lower : String → String) (mlt : ℝ) (instrument method : String) (out : Except PyErr ℝ) : Prop :=
  if lower instrument ≠ "ampere" then out = .error .valueError
  else match ellCoeff (lower method) with
    | none => out = .error .valueError
    | some (a, e, t) => ∃ x, Hr2rad r mlt (2 * piD) (.ok x) ∧ out = .ok (ellFormulaD r L a e t x)

/-- Lines 153-166 of `harmonic` (`ocb_correction.py`) for one finite double: the sum is taken from left to right, the
coefficients are decimal literals. -/
noncomputable def harmFormulaD (c : ℝ × (ℝ × ℝ) × (ℝ × ℝ) × (ℝ × ℝ) × (ℝ × ℝ) × (ℝ × ℝ) × (ℝ × ℝ)) (x : ℝ) : ℝ :=
  match c with
  | (c0, (c1, p1), (c2, p2), (c3, p3), (c4, p4), (c5, p5), (c6, p6)) =>
    let s := r (r c0 + r (r c1 * L.cos (r (x + r p1))))
    let s := r (s + r (r c2 * L.sin (r (x + r p2))))
    let s := r (s + r (r c3 * L.cos (r (2 * r (x + r p3)))))
    let s := r (s + r (r c4 * L.sin (r (2 * r (x + r p4)))))
    let s := r (s + r (r c5 * L.cos (r (3 * r (x + r p5)))))
    let s := r (s + r (r c6 * L.sin (r (3 * r (x + r p6)))));
    -s

/-- `harmonic(mlt, instrument, method)` (`ocb_correction.py` 92-166) for one finite double. -/
def HarmonicD (lower : String → String) (mlt : ℝ) (instrument method : String) (out : Except PyErr ℝ) : Prop :=
  match harmCoeff (lower instrument) (lower method) with
  | none => out = .error .valueError
  | some c => ∃ x, Hr2rad r mlt (2 * piD) (.ok x) ∧ out = .ok (harmFormulaD r L c x)

/-- `aacgm_mlt[aacgm_mlt < 0.0] += 24.0; aacgm_mlt[aacgm_mlt >= 24.0] -= 24.0` (`_boundary.py` 787-788) for one entry. -/
noncomputable def wrapMltD (m : ℝ) : ℝ :=
  let m1 := if m < 0 then r (m + 24) else m
  if 24 ≤ m1 then r (m1 - 24) else m1

/-- The radius of the boundary circle along a meridian (`_boundary.py` 821-831), from the difference of local time in
radians; `none` is NaN. -/
noncomputable def boundRadD (B : Rec) (mlt del : ℝ) : Option ℝ :=
  let disc := r (r (r (B.r + B.rf mlt) ^ 2) - r (r (B.rCent * L.sin del) ^ 2))
  if disc < 0 then none
  else
    let rad := r (r (B.rCent * L.cos del) + L.sqrt disc)
    if rad < 0 then none else some rad

/-- The boundary latitude at one wrapped local time (`_boundary.py` 817-834) as a relation; `none` is NaN.  The product with the
hemisphere, 1 or -1, is exact.  The correction `B.rf` gives the double that the function returns. -/
def BoundLatD (B : Rec) (mlt : ℝ) (out : Option ℝ) : Prop :=
  ∃ phi del, Deg2hr r B.phiCent (.ok phi) ∧ Hr2rad r (r (mlt - phi)) (2 * piD) (.ok del) ∧
    out = (boundRadD r L B mlt del).map fun rad => B.hem * r (90 - rad)

end Ocb.Dbl
