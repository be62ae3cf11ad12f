import Verif.Model.CoordDouble

/-!
# `hav` and `archav` of `ocb_scaling.py` with the rounding of double precision
-/

set_option autoImplicit false

namespace Ocb.Dbl

variable (r : ℝ → ℝ) (L : Lib)

/-- `hav` of one finite double (`ocb_scaling.py` 1176-1193): half of the angle, its sine, the square, each rounded. -/
noncomputable def havD (alpha : ℝ) : ℝ := r (L.sin (r (alpha * (1 / 2))) ^ 2)

/-- The value of the literal `1.0e-16` (`ocb_scaling.py` 1224, 1235). -/
noncomputable def tinyD : ℝ := r (1 / 10 ^ 16)

/-- `archav` of one finite double (`ocb_scaling.py` 1196-1242); `none` is NaN.  `arcsin` is numpy's for arguments up to
one, above one it gives NaN.  The doubling is exact.  The two masks exclude each other. -/
noncomputable def archavD (arcsin : ℝ → ℝ) (h : ℝ) : Option ℝ :=
  if |h| < tinyD r then some 0
  else if tinyD r ≤ h then
    if L.sqrt h ≤ 1 then some (2 * arcsin (L.sqrt h)) else none
  else none

end Ocb.Dbl
