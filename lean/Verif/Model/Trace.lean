import Verif.Model.VectMag

/-!
# The `trace_method` of `VectorData.set_ocb` (`ocbpy/ocb_scaling.py`)

`Scaling` models `set_ocb` for one tracing method.  Here the method is an argument, and the library and the boundary's
`normal_coord` are any functions of it.
-/

set_option autoImplicit false

namespace Ocb.Scale

open Ocb.Time Ocb.Coord Ocb.Vec

/-- `normal_coord` of a boundary object, see `Bnd.normal`. -/
abbrev Normal := ℤ → Arr F → Arr F → String → Arr F → Except PyErr (Arr F × Arr F × Arr F × Arr F)

/-- The method that `set_ocb` hands to `normal_coord` (`ocb_scaling.py` 656-680): with as many boundary indices as data
indices it hands over none, and the default of `normal_coord` is used (`_boundary.py` 537, 1325). -/
def methodUsed (v : VD) (method : String) : String :=
  match v.ocbInd with
  | .one _ => method
  | .many _ => if v.ocbInd.shape = v.datInd.shape then "ALLOWTRACE" else method

/-- `set_ocb(ocb, scale_func, trace_method)` (`ocb_scaling.py` 629-723).  The call of `update_vect_coords_to_mag` in line
648 has no method either, the default is that of line 991.  The indices, on which the choice of line 671 depends, are
not changed by that call. -/
noncomputable def setOcbTraced (lower : String → String) (lib : String → Aacgm) (b : Bnd) (normal : String → Normal)
    (f : Option (F → F → F → F)) (method : String) (v : VD) : Except PyErr (VD × ℤ) :=
  setOcb (updateVect lower (lib "ALLOWTRACE")) { b with normal := normal (methodUsed v method) } f v

end Ocb.Scale
