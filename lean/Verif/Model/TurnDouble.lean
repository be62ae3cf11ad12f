import Verif.Model.CoordDouble
import Verif.Model.Vectors

/-!
# The general case of `adjust_vector` of `vectors.py` with the rounding of double precision
-/

set_option autoImplicit false

namespace Ocb.Dbl

variable (r : ℝ → ℝ) (L : Lib)

/-- `calc_dest_polar_angle` (`vectors.py` 331-399) for one entry whose angles are finite doubles, see
`Ocb.Vec.destPolarTable`. -/
noncomputable def destPolarD (pq vq : ℤ) (b p : ℝ) : Option ℝ :=
  let q (o v : ℤ) : Prop := pq = o ∧ vq = v
  let d : Option ℝ := none
  let d := if q 1 1 ∨ q 2 2 ∨ q 3 3 ∨ q 4 4 then some |r (b - p)| else d
  let d := if q 1 2 ∨ q 1 3 ∨ q 2 1 ∨ q 2 4 ∨ q 3 1 ∨ q 4 2 then
      some (if 180 < r (p + b) then r (360 - r (p + b)) else r (p + b)) else d
  let d := if q 1 4 ∨ q 2 3 then some (r (b - p)) else d
  let d := if q 3 2 ∨ q 4 1 then some (r (p - b)) else d
  if q 3 4 ∨ q 4 3 then some (r (r (360 - b) - p)) else d

/-- North sign of `calc_dest_vec_sign` (`vectors.py` 462-487), see `Ocb.Vec.northSign`. -/
noncomputable def northSignD (pq vq : ℤ) (b p : ℝ) : ℝ :=
  let q (o v : ℤ) : Prop := pq = o ∧ vq = v
  if q 1 1 ∨ q 2 2 ∨ q 3 3 ∨ q 4 4
      ∨ ((q 1 4 ∨ q 2 3) ∧ b ≤ r (p + 90))
      ∨ ((q 1 2 ∨ q 2 1) ∧ b ≤ r (90 - p))
      ∨ ((q 3 4 ∨ q 4 3) ∧ r (180 - r (p - 90)) ≤ b)
      ∨ ((q 3 2 ∨ q 4 1) ∧ r (p - 90) ≤ b)
  then 1 else -1

/-- East sign of `calc_dest_vec_sign` (`vectors.py` 489-512), see `Ocb.Vec.eastSign`. -/
noncomputable def eastSignD (pq vq : ℤ) (b p : ℝ) : ℝ :=
  let q (o v : ℤ) : Prop := pq = o ∧ vq = v
  if q 1 4 ∨ q 2 1 ∨ q 3 2 ∨ q 4 3
      ∨ ((q 1 1 ∨ q 4 4) ∧ p ≤ b)
      ∨ ((q 3 1 ∨ q 2 4) ∧ b ≤ r (180 - p))
      ∨ ((q 4 2 ∨ q 1 3) ∧ r (180 - p) ≤ b)
      ∨ ((q 2 2 ∨ q 3 3) ∧ b ≤ p)
  then 1 else -1

/-- `vmag` (`vectors.py` 644-657). -/
noncomputable def vmagD (n e : ℝ) : ℝ := L.sqrt (r (r (n ^ 2) + r (e ^ 2)))

/-- `base_naz_angle` (`vectors.py` 644-659); `none` is NaN: a zero magnitude gives an infinite or undefined quotient, and the
arc cosine of that, or of a quotient above one, is NaN. -/
noncomputable def nazD (arccos : ℝ → ℝ) (n e : ℝ) : Option ℝ :=
  if vmagD r L n e = 0 then none
  else if 1 < |r (n / vmagD r L n e)| then none
  else some (L.degrees (arccos (r (n / vmagD r L n e))))

/-- `dest_naz_angle` in radians brought below a right angle (`vectors.py` 661-685). -/
noncomputable def foldD (d : ℝ) : ℝ :=
  if piD / 2 < L.radians d then r (piD - L.radians d) else L.radians d

/-- The adjusted north and east components of `adjust_vector` in the general case (`vectors.py` 632-708), for one vector of
finite doubles, a finite pole angle and the quadrants in force; `none` is NaN for both.  The products with the signs, 1 or
-1, are exact. -/
noncomputable def turnD (arccos : ℝ → ℝ) (pq vq : ℤ) (n e p : ℝ) : Option (ℝ × ℝ) :=
  match nazD r L arccos n e with
  | none => none
  | some b =>
    match destPolarD r pq vq b p with
    | none => none
    | some d =>
      some (r (northSignD r pq vq b p * vmagD r L n e * L.cos (foldD r L d)),
        r (eastSignD r pq vq b p * vmagD r L n e * L.sin (foldD r L d)))

end Ocb.Dbl
