import Verif.Model.Scaling
import Verif.Model.Dual
import Verif.Model.Pysat

/-!
# Geographic coordinates in `normal_coord` and `revert_coord` of `ocbpy/_boundary.py`

`Coord` and `Dual` model these methods for magnetic coordinates.  Here are the branches for geographic coordinates:
the library `aacgmv2` is a parameter, see `Scale.Aacgm`.

Simplifications: the arrays of a call have equal shape (single values are arrays of one entry); the library converts
entry by entry, and returns NaN where it cannot convert; arrays of different lengths are refused with ValueError; the
cursor of the OCB of a `DualBoundary` stands at the record of the selected pair, so both have the same time.
-/

set_option autoImplicit false

namespace Ocb.Geo

open Ocb.Time Ocb.Coord Ocb.Scale Ocb.Files

/-- The coordinate systems that the methods tell apart. -/
inductive Sys where
  | magnetic
  | geodetic
  | geocentric
  deriving DecidableEq, Repr

/-- `coords.lower().find('mag') < 0` and `coords.lower() == 'geocentric'` (`_boundary.py` 592, 598, 720, 727, 1411, 1417,
1666, 1675). -/
def sysOf (coords : Name) : Sys :=
  if Pysat.find (Files.lower coords) "mag".toList < 0 then
    if Files.lower coords = "geocentric".toList then .geocentric else .geodetic
  else .magnetic

/-- One location (latitude, solar local time, height) to magnetic coordinates (`_boundary.py` 593-601 and 1412-1420):
longitude from local time, then the library. -/
noncomputable def toMag (A : Aacgm) (geoc : Bool) (t : Tod) (p : F × F × F) : Except PyErr (F × F) := do
  let lon ← liftF (slt2glon · t) p.2.1
  pure (A.g2a geoc p.1 lon p.2.2 t)

/-- One magnetic location to geographic latitude and solar local time (`_boundary.py` 721-735). -/
noncomputable def toGeo (A : Aacgm) (geoc : Bool) (t : Tod) (p : F × F) (h : F) : Except PyErr (F × F) := do
  let out := A.a2g geoc p.1 (A.mlt2lon p.2 t) h t
  let lt ← liftF (glon2slt · t) out.2
  pure (out.1, lt)

/-- `normal_coord` (`_boundary.py` 576-636); `rec` is the selected record and its time.  The second component of the
result is the caller's latitude array after the call: the array that line 610 write to is the caller's only for
magnetic coordinates. -/
noncomputable def normalGeo (A : Aacgm) (rec : Option (Rec × Tod)) (coords : Name) (pts : List (F × F × F)) :
    Except PyErr (List (F × F × F) × List F) :=
  match rec with
  | none => .ok (pts.map fun _ => (none, none, none), pts.map (·.1))
  | some (B, t) =>
    match sysOf coords with
    | .magnetic => normalArr (some B) (pts.map fun p => (p.1, p.2.1))
    | s => do
      let mags ← mapE (toMag A (decide (s = .geocentric)) t) pts
      let out ← normalArr (some B) mags
      pure (out.1, pts.map (·.1))

/-- `revert_coord` (`_boundary.py` 680-740); entries (OCB latitude, OCB local time, correction) and height. -/
noncomputable def revertGeo (A : Aacgm) (rec : Option (Rec × Tod)) (coords : Name) (pts : List ((F × F × F) × F)) :
    Except PyErr (List (F × F)) :=
  let nans := pts.map fun _ => (none, none)
  match rec with
  | none => .ok nans
  | some (B, t) =>
    if (pts.map (·.1.1)).all (wrongHem B.hem) then .ok nans
    else do
      let mags ← mapE (fun p => revertEntry B p.1.1 p.1.2.1 p.1.2.2) pts
      match sysOf coords with
      | .magnetic => pure mags
      | s => mapE (fun p => toGeo A (decide (s = .geocentric)) t p.1 p.2) (mags.zip (pts.map (·.2)))

/-- `DualBoundary.normal_coord` (`_boundary.py` 1372-1492); entries (latitude, local time, height). -/
noncomputable def dualNormalGeo (A : Aacgm) (D : DualObj) (t : Tod) (s : DStore) (fresh : ℕ) (coords : Name)
    (pts : List (F × F × F)) (overwrite : Bool) : Except PyErr (List (F × F × F × F) × DStore) :=
  if D.recInd < 0 ∨ D.records ≤ D.recInd then .ok (pts.map fun _ => (none, none, none, none), s)
  else
    match sysOf coords with
    | .magnetic => dualNormal D s fresh (pts.map fun p => (p.1, p.2.1)) overwrite
    | sy => do
      let mags ← mapE (toMag A (decide (sy = .geocentric)) t) pts
      dualNormal D s fresh mags overwrite

/-- `np.where(mask)[0]` -/
def whereIdx (mask : List Bool) : List ℕ := (List.range mask.length).filter fun i => mask[i]?.getD false

/-- `l[idx] = vals` for as many values as indices. -/
def scatter {α : Type} (l : List α) (idx : List ℕ) (vals : List α) : List α :=
  (idx.zip vals).foldl (fun l p => l.set p.1 p.2) l

/-- `l[idx]` -/
def gather {α : Type} (d : α) (l : List α) (idx : List ℕ) : List α := idx.map fun i => l[i]?.getD d

/-- `aacgmv2.convert_latlon_arr(lats, convert_mlt(mlts), heights)`, followed by `glon2slt` (`_boundary.py` 1669-1684):
the lengths have to agree. -/
noncomputable def geoArr (A : Aacgm) (geoc : Bool) (t : Tod) (lats mlts hs : List F) : Except PyErr (List (F × F)) :=
  if lats.length = hs.length then mapE (fun p => toGeo A geoc t p.1 p.2) ((lats.zip mlts).zip hs)
  else .error .valueError

/-- `DualBoundary.revert_coord` with `is_ocb=False` (`_boundary.py` 1553-1689); entries (dual latitude, local time, radius
correction), the heights `hs`, and the array `amlt` of magnetic local times, `none` if not given.  The locations outside
the OCB are converted in the order of lines 1667, first those between the boundaries, then those equatorward of both,
with the heights as they were given.  Simplification: `amlt` and `hs` have the length of the other arrays. -/
noncomputable def dualRevertGeo (A : Aacgm) (D : DualObj) (t : Tod) (s : DStore) (coords : Name)
    (pts : List (F × F × F)) (hs : List F) (amlt : Option ℕ) (overwrite : Bool) :
    Except PyErr (List (F × F) × DStore) := do
  let cur ← revertGeo A ((selRec D.ocbRecs D.ocbRecInd).map fun B => (B, t)) coords (pts.zip hs)
  if pts.all fun p => absGe p.1 (some D.ocbLat) then pure (cur, s)
  else
    match amlt with
    | none => .error .valueError
    | some ref =>
      let (ob, eb, s1) ← boundStep D s ref overwrite
      let rows := (pts.zip cur).zip ((s1.heap ref).zip (ob.zip eb))
      let out := rows.map fun r => dualRevertEntry D r.1.1.1 r.1.2 r.2.1 r.2.2.1 r.2.2.2
      match sysOf coords with
      | .magnetic => pure (out, s1)
      | sy =>
        let imid := whereIdx (pts.map fun p => absLt p.1 (some D.ocbLat) && absGe p.1 (some D.eabLat))
        let iout := whereIdx (pts.map fun p => absLt p.1 (some D.eabLat))
        let imag := imid ++ iout
        let vals ← geoArr A (decide (sy = .geocentric)) t (gather none (out.map (·.1)) imag)
          (gather none (s1.heap ref) imag) hs
        pure (scatter out imag vals, s1)

end Ocb.Geo
