import Mathlib.Analysis.SpecialFunctions.Trigonometric.Inverse
import Verif.Spec.Coord

/-!
# Vocabulary of the claims about vectors

Directions on the unit sphere in three dimensions; nothing here refers to the model of `vectors.py`.
-/

set_option autoImplicit false

namespace Ocb.Vec

open Real Ocb.Coord

/-- Vectors of space. -/
abbrev V3 := ℝ × ℝ × ℝ

/-- Scalar product. -/
def dot (a b : V3) : ℝ := a.1 * b.1 + a.2.1 * b.2.1 + a.2.2 * b.2.2

/-- The point of the unit sphere at latitude `lat` (degrees) and local time `lt` (hours). -/
noncomputable def place (lat lt : ℝ) : V3 :=
  (cos (lat * π / 180) * cos (hourAngle lt), cos (lat * π / 180) * sin (hourAngle lt), sin (lat * π / 180))

/-- Unit vector to the north at that point. -/
noncomputable def northAt (lat lt : ℝ) : V3 :=
  (-sin (lat * π / 180) * cos (hourAngle lt), -sin (lat * π / 180) * sin (hourAngle lt), cos (lat * π / 180))

/-- Unit vector to the east at that point. -/
noncomputable def eastAt (lt : ℝ) : V3 := (-sin (hourAngle lt), cos (hourAngle lt), 0)

/-- The pole of the hemisphere `hem`. -/
def basePole (hem : ℝ) : V3 := (0, 0, hem)

/-- The angle at `P` (radians) of the spherical triangle with further corners `A` and `B`: the angle between the
parts of `A` and `B` tangent to the sphere at `P`, which is the spherical law of cosines. -/
noncomputable def angleAt (P A B : V3) : ℝ :=
  arccos ((dot A B - dot A P * dot B P) / (√(1 - dot A P ^ 2) * √(1 - dot B P ^ 2)))

/-- `h` hours lead eastwards from the data to the pole. -/
def Ahead (dataLt poleLt h : ℝ) : Prop := (∃ k : ℤ, h = poleLt - dataLt + 24 * k) ∧ 0 ≤ h ∧ h < 24

/-- The documented quadrants of a pole seen from the data: 1 [N, E], 2 [N, W], 3 [S, W], 4 [S, E]. -/
def PoleQ (dataLt poleLt p : ℝ) (q : ℤ) : Prop :=
  ∃ h, Ahead dataLt poleLt h ∧
    ((q = 1 ∧ p < 90 ∧ h < 12) ∨ (q = 2 ∧ p < 90 ∧ 12 ≤ h) ∨ (q = 3 ∧ 90 ≤ p ∧ 12 ≤ h) ∨ (q = 4 ∧ 90 ≤ p ∧ h < 12))

/-- The documented quadrants of a vector. -/
def VectQ (n e : ℝ) (q : ℤ) : Prop :=
  (q = 1 ∧ 0 ≤ n ∧ 0 ≤ e) ∨ (q = 2 ∧ 0 ≤ n ∧ e < 0) ∨ (q = 3 ∧ n < 0 ∧ e < 0) ∨ (q = 4 ∧ n < 0 ∧ 0 ≤ e)

/-- The bearing `A` (degrees clockwise from north) of a pole at angle `p` from north: east of the data when the pole
is less than twelve hours ahead, west otherwise. -/
def Bearing (dataLt poleLt p A : ℝ) : Prop :=
  ∃ h, Ahead dataLt poleLt h ∧ ((h < 12 ∧ A = p) ∨ (12 ≤ h ∧ A = -p))

/-- Component of the horizontal vector (north `n`, east `e`) along bearing `A` (degrees clockwise from north). -/
noncomputable def along (A n e : ℝ) : ℝ := n * cos (A * π / 180) + e * sin (A * π / 180)

end Ocb.Vec
