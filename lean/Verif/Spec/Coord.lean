import Mathlib.Analysis.SpecialFunctions.Trigonometric.Basic
import Mathlib.Analysis.SpecialFunctions.Sqrt
import Verif.Model.Coord

/-!
# Vocabulary of the geometric claims

Distances are measured in the plane in which a location has polar coordinates (colatitude, local time); this is the
"planar surface" of the documentation.
-/

set_option autoImplicit false

namespace Ocb.Coord

/-- Degrees from the pole of the hemisphere `hem`. -/
def colat (hem lat : ℝ) : ℝ := 90 - hem * lat

/-- Local time in hours as an angle. -/
noncomputable def hourAngle (h : ℝ) : ℝ := h * Real.pi / 12

/-- Squared distance between the points with polar coordinates `(a, α)` and `(b, β)`: law of cosines. -/
noncomputable def polarDist2 (a α b β : ℝ) : ℝ := a ^ 2 + b ^ 2 - 2 * a * b * Real.cos (α - β)

/-- Distance of a location from the centre of the boundary circle. -/
noncomputable def distCentre (B : Rec) (lat mlt : ℝ) : ℝ :=
  Real.sqrt (polarDist2 (colat B.hem lat) (hourAngle mlt) B.rCent (B.phiCent * Real.pi / 180))

/-- Same local time: equal up to whole days. -/
def SameHour (h h' : ℝ) : Prop := ∃ k : ℤ, h = h' + k * 24

/-- A record as the constructor leaves it: hemisphere ±1, reference latitude of that hemisphere, off the pole. -/
structure Rec.Valid (B : Rec) : Prop where
  hem : B.hem = 1 ∨ B.hem = -1
  blat : 0 ≤ B.hem * B.blat
  pole : |B.blat| < 90

/-- Entry-wise NaN test of the claims: latitude of the right hemisphere. -/
def InHem (hem lat : ℝ) : Prop := (SignType.sign lat : ℝ) = hem

end Ocb.Coord
