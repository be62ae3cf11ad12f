import Verif.Model.CoordDouble

/-!
# `calc_vec_pole_angle` of `vectors.py` with the rounding of double precision
-/

set_option autoImplicit false

namespace Ocb.Dbl

variable (r : ℝ → ℝ) (L : Lib)

/-- `del_pole` or `del_vect` (`vectors.py` 113-118) of a latitude in degrees.  The products with the hemisphere, 1 or -1,
and with 0.5 are exact. -/
noncomputable def sideD (hem lat : ℝ) : ℝ := hem * r (hem * piD * (1 / 2) - L.radians lat)

/-- `del_dest` (`vectors.py` 121-128) from the longitude difference in radians and the two latitudes in degrees. -/
noncomputable def destD (lon dataLat poleLat : ℝ) : ℝ :=
  let p := L.radians poleLat
  let d := L.radians dataLat
  L.atan2
    (L.sqrt (r (r (r (L.cos p * L.sin lon) ^ 2)
      + r (r (r (L.cos d * L.sin p) - r (r (L.sin d * L.cos p) * L.cos lon)) ^ 2))))
    (r (r (L.sin d * L.sin p) + r (r (L.cos d * L.cos p) * L.cos lon)))

/-- `np.degrees(2.0 * np.arccos(half_angle))` (`vectors.py` 131-140) from the three sides; `none` is NaN.  `arccos` is numpy's
for arguments up to one, above one it gives NaN, as the root of a negative number does.  A zero denominator gives NaN
or an infinity, and the arc cosine of either is NaN. -/
noncomputable def halfD (arccos : ℝ → ℝ) (pole vect dest : ℝ) : Option ℝ :=
  let s := r (1 / 2 * r (r (vect + dest) + pole))
  let den := r (L.sin vect * L.sin dest)
  let q := r (r (L.sin s * L.sin (r (s - pole))) / den)
  if den = 0 then none
  else if q < 0 then none
  else if 1 < L.sqrt q then none
  else some (L.degrees (r (2 * arccos (L.sqrt q))))

/-- `calc_vec_pole_angle` for four finite doubles (`vectors.py` 48-142), single or as one entry of arrays, as a relation, since
`fix_range` may loop for ever; `none` is NaN. -/
noncomputable def PoleAngleD (arccos : ℝ → ℝ) (dataLt dataLat poleLt poleLat : ℝ) (out : Option ℝ) : Prop :=
  ∃ lon, Hr2rad r (r (poleLt - dataLt)) piD (.ok lon) ∧
    out = if lon = -piD ∨ lon = 0 ∨ lon = piD then some (if |poleLat| < |dataLat| then 180 else 0)
      else
        let hem := (SignType.sign poleLat : ℝ)
        halfD r L arccos (sideD r L hem poleLat) (sideD r L hem dataLat) (destD r L lon dataLat poleLat)

end Ocb.Dbl
