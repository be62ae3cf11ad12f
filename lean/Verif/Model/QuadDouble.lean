import Verif.Model.PoleDouble
import Verif.Model.TurnDouble

/-!
# `define_pole_quadrants` of `vectors.py` with the rounding of double precision, and the steps that turn one vector
-/

set_option autoImplicit false

namespace Ocb.Dbl

open Ocb.Vec

variable (r : ℝ → ℝ) (L : Lib)

/-- `define_pole_quadrants` (`vectors.py` 145-228) for three finite doubles, single or as one entry of arrays, as a relation,
since the loops may run for ever on large differences. -/
def PoleQuadD (dataLt poleLt p : ℝ) (q : ℤ) : Prop :=
  ∃ y z, While (fun s => decide (s < 0)) (fun s => r (s + 24)) (r (poleLt - dataLt)) y ∧
    While (fun s => decide (24 ≤ |s|)) (fun s => r (s - 24 * (SignType.sign s : ℝ))) y z ∧
    q = if p < 90 ∧ z < 12 then 1
      else if p < 90 ∧ 12 ≤ z then 2
      else if 90 ≤ p ∧ 12 ≤ z then 3
      else if 90 ≤ p ∧ z < 12 then 4
      else 0

/-- The steps of `VectorData.set_ocb` that turn one vector (`ocb_scaling.py` 704-708, 760-764, 793-797 and 865-867): the pole angle, both
quadrants and the general case of `adjust_vector`, from the place of the data and of the pole and the two components.
Only pole angles strictly between 0 and 180 degrees are in the general case. -/
def TurnedD (arccos : ℝ → ℝ) (dataLt dataLat poleLt poleLat n e : ℝ) (out : Option (ℝ × ℝ)) : Prop :=
  ∃ p q, PoleAngleD r L arccos dataLt dataLat poleLt poleLat (some p) ∧ 0 < p ∧ p < 180 ∧ PoleQuadD r dataLt poleLt p q ∧
    out = turnD r L arccos q (vectQuad (some n) (some e)) n e p

end Ocb.Dbl
