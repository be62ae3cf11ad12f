import Mathlib.Analysis.SpecialFunctions.Complex.Arg
import Verif.Model.Time

/-!
# Model of the coordinate transforms of `OCBoundary`

`normal_coord`, `revert_coord`, `get_aacgm_boundary_lat` and the geometry of `load` (`_boundary.py`), over the reals.
Rounding is out of scope.  A NaN array entry is `none`.  Geographic input, which goes through the external `aacgmv2`
package, is left out: only `coords='magnetic'` is modelled.
-/

set_option autoImplicit false

namespace Ocb.Coord

open Ocb.Time

/-- `np.arctan2(y, x)` for finite arguments: the angle of the point in (-pi, pi], zero at the origin.
Simplification: signed zeros are not told apart. -/
noncomputable def atan2 (y x : ℝ) : ℝ := Complex.arg ⟨x, y⟩

/-- `np.radians`. -/
noncomputable def radians (d : ℝ) : ℝ := d * Real.pi / 180

/-- `np.degrees`. -/
noncomputable def degrees (r : ℝ) : ℝ := r * 180 / Real.pi

/-- One boundary record and the object attributes it is used with (`_boundary.py` 83-122).  `rf` is
`self.rfunc[rec](., **self.rfunc_kwargs[rec])`. -/
structure Rec where
  phiCent : ℝ
  rCent : ℝ
  r : ℝ
  rf : ℝ → ℝ
  hem : ℝ
  blat : ℝ

/-- Centre of the boundary circle, x towards midnight, in degrees (`_boundary.py` 613-615 and 700-702). -/
noncomputable def Rec.xc (B : Rec) : ℝ := B.rCent * Real.cos (radians B.phiCent)
noncomputable def Rec.yc (B : Rec) : ℝ := B.rCent * Real.sin (radians B.phiCent)

/-- `ocb_mlt = deg2hr(degrees(arctan2(y, x)))` and `fix_range(., 0, 24)` (`_boundary.py` 633-634 and 716-717). -/
noncomputable def xyHours (x y : ℝ) : Except PyErr ℝ := do
  let m ← deg2hr (degrees (atan2 y x))
  fixRange m 0 24 none

/-- `normal_coord` for one finite magnetic location of the right hemisphere (`_boundary.py` 612-634): OCB latitude,
OCB local time, radius correction.  Precondition, kept as a hypothesis of the theorems: `r + r_corr ≠ 0`, otherwise
numpy divides by zero. -/
noncomputable def normalPt (B : Rec) (lat mlt : ℝ) : Except PyErr (ℝ × ℝ × ℝ) := do
  let scalep := 90 - B.hem * lat
  let th ← hr2rad mlt (2 * Real.pi)
  let xp := scalep * Real.cos th
  let yp := scalep * Real.sin th
  let rCorr := B.rf mlt
  let scalen := (90 - |B.blat|) / (B.r + rCorr)
  let xn := (xp - B.xc) * scalen
  let yn := (yp - B.yc) * scalen
  let ocbLat := B.hem * (90 - Real.sqrt (xn ^ 2 + yn ^ 2))
  let ocbMlt ← xyHours xn yn
  pure (ocbLat, ocbMlt, rCorr)

/-- `revert_coord` for one finite OCB location (`_boundary.py` 699-717): magnetic latitude and local time.
Precondition: `90 - hemisphere * boundary_lat ≠ 0`. -/
noncomputable def revertPt (B : Rec) (ocbLat ocbMlt rCorr : ℝ) : Except PyErr (ℝ × ℝ) := do
  let rn := 90 - B.hem * ocbLat
  let thetan := ocbMlt * Real.pi / 12
  let xn := rn * Real.cos thetan
  let yn := rn * Real.sin thetan
  let scaleOcb := (B.r + rCorr) / (90 - B.hem * B.blat)
  let xp := xn * scaleOcb + B.xc
  let yp := yn * scaleOcb + B.yc
  let lat := B.hem * (90 - Real.sqrt (xp ^ 2 + yp ^ 2))
  let mlt ← xyHours xp yp
  pure (lat, mlt)

/-- `np.sign(lat) != self.hemisphere`, true for NaN. -/
noncomputable def wrongHem (hem : ℝ) : Option ℝ → Bool
  | none => true
  | some lat => decide ((SignType.sign lat : ℝ) ≠ hem)

/-- One entry of the vectorised computation: a NaN latitude or local time gives NaN coordinates.
Simplification: the radius correction at a NaN local time is reported as NaN. -/
noncomputable def normalEntry (B : Rec) : Option ℝ → Option ℝ → Except PyErr (Option ℝ × Option ℝ × Option ℝ)
  | some lat, some mlt => do
    let (a, b, c) ← normalPt B lat mlt
    pure (some a, some b, some c)
  | none, some mlt => pure (none, none, some (B.rf mlt))
  | _, none => pure (none, none, none)

/-- `normal_coord` on two float arrays of equal shape, given as a list of (latitude, local time)
(`_boundary.py` 577-636).  `rec` is the selected record, `none` when `rec_ind` is out of range.  The second component
of the result is the caller's latitude array after the call. -/
noncomputable def normalArr (rec : Option Rec) (pts : List (Option ℝ × Option ℝ)) :
    Except PyErr (List (Option ℝ × Option ℝ × Option ℝ) × List (Option ℝ)) :=
  let lats := pts.map (·.1)
  let nans := pts.map fun _ => (none, none, none)
  match rec with
  | none => .ok (nans, lats)
  | some B =>
    if lats.any (wrongHem B.hem) && lats.all (wrongHem B.hem) then .ok (nans, lats)
    else do
      let lats' := lats.map fun l => if wrongHem B.hem l then none else l
      let out ← mapE (fun p => normalEntry B (if wrongHem B.hem p.1 then none else p.1) p.2) pts
      pure (out, lats')

/-- One entry of the vectorised `revert_coord`. -/
noncomputable def revertEntry (B : Rec) : Option ℝ → Option ℝ → Option ℝ → Except PyErr (Option ℝ × Option ℝ)
  | some lat, some mlt, some rc => do
    let (a, b) ← revertPt B lat mlt rc
    pure (some a, some b)
  | _, _, _ => pure (none, none)

/-- `revert_coord` on three float arrays of equal shape, entries (OCB latitude, OCB local time, correction)
(`_boundary.py` 679-740): NaN only when every entry is in the wrong hemisphere. -/
noncomputable def revertArr (rec : Option Rec) (pts : List (Option ℝ × Option ℝ × Option ℝ)) :
    Except PyErr (List (Option ℝ × Option ℝ)) :=
  let nans := pts.map fun _ => (none, none)
  match rec with
  | none => .ok nans
  | some B =>
    if (pts.map (·.1)).all (wrongHem B.hem) then .ok nans
    else mapE (fun p => revertEntry B p.1 p.2.1 p.2.2) pts

/-! ### boundary latitude -/

/-- `aacgm_mlt[aacgm_mlt < 0.0] += 24.0; aacgm_mlt[aacgm_mlt >= 24.0] -= 24.0` (`_boundary.py` 787-788). -/
noncomputable def wrapMlt (m : ℝ) : ℝ :=
  let m1 := if m < 0 then m + 24 else m
  if 24 ≤ m1 then m1 - 24 else m1

/-- The boundary latitude at one (wrapped) local time (`_boundary.py` 817-834); `none` is NaN: no intersection of
the meridian with the circle, or only behind the pole. -/
noncomputable def boundaryLat (B : Rec) (mlt : ℝ) : Except PyErr (Option ℝ) := do
  let phi ← deg2hr B.phiCent
  let del ← hr2rad (mlt - phi) (2 * Real.pi)
  let scaleR := B.r + B.rf mlt
  let disc := scaleR ^ 2 - (B.rCent * Real.sin del) ^ 2
  if disc < 0 then pure none
  else
    let rad := B.rCent * Real.cos del + Real.sqrt disc
    if rad < 0 then pure none else pure (some (B.hem * (90 - rad)))

/-! ### loading -/

/-- Polar centre from Cartesian centre (`_boundary.py` 409-417): `r_cent` and `phi_cent`. -/
noncomputable def polarCentre (x y : ℝ) : ℝ × ℝ :=
  let phi := degrees (atan2 y x) + 90
  (Real.sqrt (x ^ 2 + y ^ 2), if phi < 0 then phi + 360 else phi)

end Ocb.Coord
