import Verif.Model.Scaling

/-!
# Model of the assignments to attributes of `VectorData` (`ocbpy/ocb_scaling.py` 274-330, 546-610)

An assignment goes through `__setattr__` (lines 274-294), which turns numbers into arrays, and for the attributes below
through a property setter, which spreads a single value over the index array (`spread`).  No setter looks at other
attributes or at the results of an earlier `set_ocb`.
-/

set_option autoImplicit false

namespace Ocb.Scale

/-- `vdata.lat = x` (`ocb_scaling.py` 584-588). -/
def setLat (v : VD) (x : Arr F) : VD := { v with lat := spread v.datInd x }

/-- `vdata.lt = x` (`ocb_scaling.py` 595-599). -/
def setLt (v : VD) (x : Arr F) : VD := { v with lt := spread v.datInd x }

/-- `vdata.height = x` (`ocb_scaling.py` 606-610). -/
def setHeight (v : VD) (x : Arr F) : VD := { v with height := spread v.datInd x }

/-- `vdata.ocb_lat = x` (`ocb_scaling.py` 551-555). -/
def setOcbLat (v : VD) (x : Arr F) : VD := { v with ocbLat := spread v.ocbInd x }

/-- `vdata.ocb_mlt = x` (`ocb_scaling.py` 562-566). -/
def setOcbMlt (v : VD) (x : Arr F) : VD := { v with ocbMlt := spread v.ocbInd x }

/-- `vdata.r_corr = x` (`ocb_scaling.py` 573-577). -/
def setRCorr (v : VD) (x : Arr F) : VD := { v with rCorr := spread v.ocbInd x }

/-- `vdata.vect_n = n; vdata.vect_e = e; vdata.vect_z = z`: plain attributes, `__setattr__` only (`ocb_scaling.py`
286-294). -/
def setComponents (v : VD) (n e z : Arr F) : VD := { v with vectN := n, vectE := e, vectZ := z }

/-- What `normal_coord` returns: three arrays for the single boundaries, four for `DualBoundary`. -/
inductive NormalOut where
  | three (lat mlt rCorr : Arr F)
  | four (lat mlt ocbLat rCorr : Arr F)

/-- The three arrays that `_assign_normal_coord_output` uses (`ocb_scaling.py` 448-459): the third of four is dropped. -/
def NormalOut.used : NormalOut → Arr F × Arr F × Arr F
  | .three l m r => (l, m, r)
  | .four l m _ r => (l, m, r)

/-- `_assign_normal_coord_output(out_coord)` (`ocb_scaling.py` 436-460) without index, through the setters. -/
def assignNormal (v : VD) (o : NormalOut) : VD :=
  setRCorr (setOcbMlt (setOcbLat v o.used.1) o.used.2.1) o.used.2.2

end Ocb.Scale
