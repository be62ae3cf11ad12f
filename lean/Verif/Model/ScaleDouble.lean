import Verif.Model.Double

/-!
# The scaling functions of `ocb_scaling.py` with the rounding of double precision
-/

set_option autoImplicit false

namespace Ocb.Dbl

variable (r : ℝ → ℝ)

/-- `normal_evar` of one finite double (`ocb_scaling.py` 1112-1141): a product, then a quotient, each rounded.
Precondition, kept as a hypothesis of the theorems: `scaled_r ≠ 0`. -/
noncomputable def normalEvarD (evar unscaled scaled : ℝ) : ℝ := r (r (evar * unscaled) / scaled)

/-- `normal_curl_evar` of one finite double (`ocb_scaling.py` 1144-1173): a quotient, its square, a product, each rounded
(numpy squares by multiplication). -/
noncomputable def normalCurlEvarD (curl unscaled scaled : ℝ) : ℝ := r (curl * r (r (unscaled / scaled) ^ 2))

end Ocb.Dbl
