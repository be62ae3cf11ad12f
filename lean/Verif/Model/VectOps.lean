import Verif.Model.VectSet
import Verif.Model.VectMag

/-!
# Model of whole histories of a `VectorData` object (`ocbpy/ocb_scaling.py` 106-1109)

Everything a program can do with an object after its construction: assignments to its attributes and calls of its
methods, in any order and number.
-/

set_option autoImplicit false

namespace Ocb.Scale

open Ocb.Time Ocb.Coord Ocb.Vec

/-- One statement of a program that uses the object. -/
inductive VCall where
  | datInd (i : Arr ℤ)
  | ocbInd (i : Arr ℤ)
  | lat (x : Arr F)
  | lt (x : Arr F)
  | height (x : Arr F)
  | ocbLat (x : Arr F)
  | ocbMlt (x : Arr F)
  | rCorr (x : Arr F)
  | components (n e z : Arr F)
  | magnitude (m : Arr F)
  | scaleFunc (f : Option (F → F → F → F))
  | clear
  | setOcb (b : Bnd) (f : Option (F → F → F → F))
  | poleAngle
  | quadrants
  | scale
  | toCoord (ts : Arr Tod) (coord : String)
  | toMag (ts : Arr Tod) (hem : ℤ)

/-- What the statement makes of an object: the attribute setters (`ocb_scaling.py` 274-330, 467-610), `clear_data`
(612-627), `set_ocb` (629-723), `define_quadrants` (725-766), `scale_vector` (768-821), `calc_vec_pole_angle` (823-868),
`update_loc_coords` (870-988) and `update_vect_coords_to_mag` (990-1109).  Simplifications: an index assignment that
fails leaves the object as it is then, which the next statement can use; the other statements are followed only if they
do not raise.  Single components are assigned by `components` with the present values for the others. -/
def After (lower : String → String) (A : Aacgm) : VCall → VD → VD → Prop
  | .datInd i, v, w => w = (setDatInd v i).1
  | .ocbInd i, v, w => w = (setOcbInd v i).1
  | .lat x, v, w => w = setLat v x
  | .lt x, v, w => w = setLt v x
  | .height x, v, w => w = setHeight v x
  | .ocbLat x, v, w => w = setOcbLat v x
  | .ocbMlt x, v, w => w = setOcbMlt v x
  | .rCorr x, v, w => w = setRCorr v x
  | .components n e z, v, w => w = setComponents v n e z
  | .magnitude m, v, w => setVectMag v m = .ok w
  | .scaleFunc f, v, w => w = { v with scaleFunc := f }
  | .clear, v, w => w = clearData v
  | .setOcb b f, v, w => ∃ r, setOcb (updateVect lower A) b f v = .ok (w, r)
  | .poleAngle, v, w => calcPoleAngle v = .ok w
  | .quadrants, v, w => defineQuadrants v = .ok w
  | .scale, v, w => scaleVector v = .ok w
  | .toCoord ts coord, v, w => updateLoc lower A v ts coord = .ok w
  | .toMag ts hem, v, w => updateVect lower A v ts hem = .ok w

/-- A run of a program whose statements are all of the kind `P`. -/
inductive Runs (lower : String → String) (A : Aacgm) (P : VCall → Prop) : VD → VD → Prop
  | start (v : VD) : Runs lower A P v v
  | next {u v w : VD} (c : VCall) (hc : P c) (h : Runs lower A P u v) (hw : After lower A c v w) : Runs lower A P u w

end Ocb.Scale
