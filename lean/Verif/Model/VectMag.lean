import Verif.Model.Scaling

/-!
# Model of `VectorData.update_vect_coords_to_mag`

The step of `set_ocb` that turns vectors with geographic components into vectors with magnetic components
(`ocb_scaling.py` 990-1109).  The tracing method is part of the parameter `Aacgm`.
-/

set_option autoImplicit false

namespace Ocb.Scale

open Ocb.Time Ocb.Coord Ocb.Vec

/-- The locations of the vectors in both systems (`ocb_scaling.py` 1011-1035). -/
structure Places where
  geoLt : Arr F
  geoLat : Arr F
  magLt : Arr F
  magLat : Arr F

/-- Both locations (`ocb_scaling.py` 1011-1035).  Magnetic locations are converted and put back afterwards, but a
height that `update_loc_coords` has spread over the times stays spread; geographic ones are replaced. -/
noncomputable def bothPlaces (lower : String → String) (A : Aacgm) (v : VD) (dtimes : Arr Tod) :
    Except PyErr (VD × Places) :=
  if v.locCoord = "magnetic" then do
    let w ← updateLoc lower A v dtimes v.vectCoord
    return ({ w with lt := spread w.datInd v.lt, lat := spread w.datInd v.lat, locCoord := "magnetic" },
      { geoLt := w.lt, geoLat := w.lat, magLt := v.lt, magLat := v.lat })
  else do
    let w ← updateLoc lower A v dtimes "magnetic"
    return (w, { geoLt := v.lt, geoLat := v.lat, magLt := w.lt, magLat := w.lat })

/-- `np.full(shape=s, fill_value=x)` for a single value; an array is taken to have the shape already. -/
def growTo {α : Type*} (s : Shape) (x : Arr α) : Arr α :=
  match x with
  | .one a => .full s a
  | x => x

/-- The shapes are made equal (`ocb_scaling.py` 1041-1050); only the local times are looked at. -/
def Places.even (p : Places) : Places :=
  if p.geoLt.shape ≠ p.magLt.shape then
    if p.geoLt.shape = none then
      { p with geoLt := growTo p.magLt.shape p.geoLt, geoLat := growTo p.magLt.shape p.geoLat }
    else if p.magLt.shape = none then
      { p with magLt := growTo p.geoLt.shape p.magLt, magLat := growTo p.geoLt.shape p.magLat }
    else p
  else p

/-- The geographic place of the magnetic pole at one height and time: solar local time and latitude
(`ocb_scaling.py` 1067-1078). -/
noncomputable def poleAt (A : Aacgm) (geoc : Bool) (hem : ℤ) (h : F) (t : Tod) : Except PyErr (F × F) := do
  let out := A.a2g geoc (some (hem * 90)) (some 0) h t
  let slt ← liftF (glon2slt · t) out.2
  return (slt, out.1)

/-- `self.height[i]` -/
def heightAt (v : VD) (i : ℕ) : Except PyErr F :=
  match v.height with
  | .one _ => .error .indexError
  | .many l => match l[i]? with
    | some h => .ok h
    | none => .error .indexError

/-- The magnetic pole for every time (`ocb_scaling.py` 1052-1081).  For one time the library function
`convert_latlon` is handed all the heights at once; it takes one height and compares it with 0, which numpy refuses
for an array of any other length than one. -/
noncomputable def magPole (A : Aacgm) (geoc : Bool) (hem : ℤ) (v : VD) (dtimes : Arr Tod) :
    Except PyErr (Arr (F × F)) :=
  match dtimes with
  | .one t => do
    let h ← single v.height
    let p ← poleAt A geoc hem h t
    return .one p
  | .many ts => do
    let l ← Ocb.mapE (fun (x : Tod × ℕ) => do
      let h ← heightAt v x.2
      poleAt A geoc hem h x.1) ts.zipIdx
    return .many l

/-- The rotation (`ocb_scaling.py` 1083-1098): the angle and the quadrants belong to the geographic locations, but
`adjust_vector` is given the magnetic ones together with the geographic place of the pole.  The arguments of
`adjust_vector` travel in the attributes of a scratch object.  If no angle is a number the names `vect_quad` and
`pole_quad` are unbound at line 1098. -/
noncomputable def turn (v : VD) (p : Places) (pole : Arr (F × F)) : Except PyErr (Arr VOut) := do
  let slt := pole.map Prod.fst
  let glat := pole.map Prod.snd
  let data ← p.geoLt.zip p.geoLat
  let pl ← slt.zip glat
  let all ← data.zip pl
  let ang ← poleAngles all
  if ang.allNan then .error .unboundLocal
  else do
    let lts ← p.geoLt.zip slt
    let la ← lts.zip ang
    let ne ← v.vectN.zip v.vectE
    adjust { v with
      lt := p.magLt, lat := p.magLat, aacgmMlt := slt, aacgmLat := glat, poleAngle := ang
      ocbQuad := la.map fun x => poleQuad x.1.1 x.1.2 x.2
      vecQuad := ne.map fun x => vectQuad x.1 x.2 }

/-- `update_vect_coords_to_mag(dtimes, hemisphere)` (`ocb_scaling.py` 990-1109). -/
noncomputable def updateVect (lower : String → String) (A : Aacgm) (v : VD) (dtimes : Arr Tod) (hem : ℤ) :
    Except PyErr VD :=
  if v.vectCoord ≠ "magnetic" then do
    let (w, p) ← bothPlaces lower A v dtimes
    if p.magLat.allNan ∨ p.magLt.allNan then return w
    else do
      let p := p.even
      let pole ← magPole A (decide (v.vectCoord = "geocentric")) hem w dtimes
      let out ← turn w p pole
      setVectMag { w with
        vectN := out.map (·.1), vectE := out.map (·.2.1), vectZ := out.map (·.2.2), vectCoord := "magnetic" } (.one none)
  else .ok v

end Ocb.Scale
