import Verif.Model.Supermag
import Verif.Model.VortOut
import Verif.Model.Scaling

/-!
# Model of `supermag2ascii_ocb` (`ocbpy/instruments/supermag.py` 24-204)

From the loaded table to the rows of the output file.  The values of a row are those before formatting.
-/

set_option autoImplicit false

namespace Ocb.SmagOut

open Ocb.Files (Name)
open Ocb.Vort (F Conv)
open Ocb.Smag (Val driveGroups)
open Ocb.Coord (Rec normalArr selRec)
open Ocb.Cycle (Cycler)
open Ocb.Scale (Arr VD Bnd Args construct setOcb)
open Ocb.Time (Tod)
open Ocb.VortOut (sgn chooseHem pick)

/-- The columns of the table that the driver uses. -/
structure Mag where
  time : List ℤ
  id : List Name
  sml : List ℤ
  smu : List ℤ
  sza : List F
  mlat : List F
  mlt : List F
  bn : List F
  be : List F
  bz : List F

/-- The numbers of a column. -/
def nums (l : List Val) : List F := l.filterMap fun v => match v with | .num x => some x | _ => none

/-- The whole numbers of a column. -/
def ints (l : List Val) : List ℤ := l.filterMap fun v => match v with | .int x => some x | _ => none

/-- The texts of a column. -/
def txts (l : List Val) : List Name := l.filterMap fun v => match v with | .txt x => some x | _ => none

/-- The times of a column. -/
def stamps (l : List Val) : List ℤ := l.filterMap fun v => match v with | .time x => some x | _ => none

/-- The columns of a loaded table.  Simplification: entries of another type than the column has are dropped; see `load` for
the only way to get them. -/
def ofTable (t : Smag.Table) : Mag where
  time := stamps (t "DATETIME".toList)
  id := txts (t "STID".toList)
  sml := ints (t "SML".toList)
  smu := ints (t "SMU".toList)
  sza := nums (t "SZA".toList)
  mlat := nums (t "MLAT".toList)
  mlt := nums (t "MLT".toList)
  bn := nums (t "BN".toList)
  be := nums (t "BE".toList)
  bz := nums (t "BZ".toList)

/-- `x[i]`, NaN where there is none. -/
def colAt (l : List F) (i : ℕ) : F := (l[i]?).getD none

/-- `igood` (`supermag.py` 125-128).  Numbers are real or NaN here. -/
noncomputable def igood (m : Mag) (hem : ℤ) : List ℕ :=
  (List.range m.mlt.length).filter fun i =>
    (colAt m.mlt i).isSome && (colAt m.mlat i).isSome && (colAt m.be i).isSome && (colAt m.bn i).isSome &&
      (colAt m.bz i).isSome && decide (sgn (colAt m.mlat i) = some hem)

/-- All columns at the positions (`supermag.py` 131-132). -/
def pickMag (idx : List ℕ) (m : Mag) : Mag where
  time := pick idx m.time
  id := pick idx m.id
  sml := pick idx m.sml
  smu := pick idx m.smu
  sza := pick idx m.sza
  mlat := pick idx m.mlat
  mlt := pick idx m.mlt
  bn := pick idx m.bn
  be := pick idx m.be
  bz := pick idx m.bz

/-- A boundary object as used by the driver: its records and how to step through them, the cursor, and what `set_ocb` uses
of it. -/
structure Bound where
  cyc : Cycler
  cursor : ℤ
  bnd : Bnd

/-- `normal_coord` of an `OCBoundary` in magnetic coordinates, for `set_ocb`: the latitude array after the call, boundary
latitude, local time and radius correction.  Simplification: two arrays or two single values. -/
noncomputable def normalOf (recs : List Rec) (k : ℤ) (lat lt : Arr F) : Except PyErr (Arr F × Arr F × Arr F × Arr F) :=
  match lat, lt with
  | .many a, .many c => do
    let (out, lats) ← normalArr (selRec recs k) (a.zip c)
    pure (.many lats, .many (out.map (·.1)), .many (out.map (·.2.1)), .many (out.map (·.2.2)))
  | .one a, .one c => do
    let (out, lats) ← normalArr (selRec recs k) [(a, c)]
    let o ← pyIdx out 0
    let l ← pyIdx lats 0
    pure (.one l, .one o.1, .one o.2.1, .one o.2.2)
  | _, _ => .error .valueError

/-- An `OCBoundary`. -/
noncomputable def single (recs : List Rec) (hem : ℤ) (blat : ℝ) (times : List Tod) (cyc : Cycler) (cursor : ℤ) : Bound where
  cyc := cyc
  cursor := cursor
  bnd :=
    { hem := hem, recInd := cursor, dtime := times, blat := blat, r := recs.map Rec.r, phiCent := recs.map Rec.phiCent
      rCent := recs.map Rec.rCent, pairs := none, normal := fun k lat lt _ _ => normalOf recs k lat lt }

/-- A row of the output file. -/
structure Row where
  time : ℤ
  nst : ℕ
  id : Name
  sml : ℤ
  smu : ℤ
  sza : F
  lat : F
  lt : F
  mag : F
  n : F
  e : F
  z : F
  ocbLat : F
  ocbMlt : F
  ocbMag : F
  ocbN : F
  ocbE : F
  ocbZ : F

/-- `x[i]` of an attribute; a single value cannot be indexed. -/
def arrAt {α : Type} (a : Arr α) (i : ℕ) : Except PyErr α :=
  match a with
  | .one _ => .error .indexError
  | .many l => pyIdx l i

/-- The arguments of `VectorData` for the stations `idx` (`supermag.py` 162-166), with the defaults of the constructor
(`ocb_scaling.py` 106-110). -/
def vectArgs (m : Mag) (scale : Option (F → F → F → F)) (idx : List ℕ) (k : ℤ) : Args where
  datInd := .many (idx.map Int.ofNat)
  ocbInd := .one k
  lat := .many (pick idx m.mlat)
  lt := .many (pick idx m.mlt)
  height := .one (some 350)
  locCoord := "magnetic"
  ocbLat := .one none
  ocbMlt := .one none
  rCorr := .one none
  vectN := .many (pick idx m.bn)
  vectE := .many (pick idx m.be)
  vectZ := .many (pick idx m.bz)
  vectMag := .one none
  vectCoord := "magnetic"
  scaleFunc := scale

/-- One row (`supermag.py` 177-198): position in the group and in the table. -/
def row (m : Mag) (v : VD) (nst : ℕ) (p : ℕ × ℕ) : Except PyErr Row := do
  let time ← pyIdx m.time p.2
  let id ← pyIdx m.id p.2
  let sml ← pyIdx m.sml p.2
  let smu ← pyIdx m.smu p.2
  let sza ← pyIdx m.sza p.2
  let lat ← arrAt v.lat p.1
  let lt ← arrAt v.lt p.1
  let mag ← arrAt v.vectMag p.1
  let n ← arrAt v.vectN p.1
  let e ← arrAt v.vectE p.1
  let z ← arrAt v.vectZ p.1
  let olat ← arrAt v.ocbLat p.1
  let omlt ← arrAt v.ocbMlt p.1
  let omag ← arrAt v.ocbMag p.1
  let on ← arrAt v.ocbN p.1
  let oe ← arrAt v.ocbE p.1
  let oz ← arrAt v.ocbZ p.1
  pure ⟨time, nst, id, sml, smu, sza, lat, lt, mag, n, e, z, olat, omlt, omag, on, oe, oz⟩

/-- The rows of one time (`supermag.py` 159-199): `idx` are the stations, `k` is the record.  The names of the coordinate
systems are in lower case already, and `update_vect_coords_to_mag` leaves magnetic vectors alone. -/
noncomputable def group (b : Bound) (scale : Option (F → F → F → F)) (m : Mag) (idx : List ℕ) (k : ℤ) : Except PyErr (List Row) := do
  let v ← construct id (vectArgs m scale idx k)
  let (w, _) ← setOcb (fun v _ _ => .ok v) { b.bnd with recInd := k } none v
  mapE (row m w idx.length) ((List.range idx.length).zip idx)

/-- What the call leaves: no output file, or the rows of it. -/
inductive Out where
  | nothing
  | file (rows : List Row)

/-- `supermag2ascii_ocb` after the table is read and the boundary is there (`supermag.py` 119-204).
Simplification: the rows are computed after all pairs are known. -/
noncomputable def write (b : Bound) (hem : ℤ) (tol : ℤ) (scale : Option (F → F → F → F)) (m : Mag) : Except PyErr Out :=
  if b.cyc.records = 0 then .ok .nothing
  else
    let good := igood m hem
    let m' := if good.length ≠ m.mlt.length then pickMag good m else m
    match driveGroups b.cyc m'.time tol 0 b.cursor with
    | .error e => .error e
    | .ok gs =>
      match mapE (fun g => group b scale m' g.1 g.2) gs with
      | .error e => .error e
      | .ok rs => .ok (.file rs.flatten)

/-- Hemisphere and boundary (`supermag.py` 93-117): `given` is the object passed by the caller, `make` loads one for a start
time, an end time and a hemisphere.  Times are in microseconds, `tol` too. -/
noncomputable def setup (given : Option Bound) (make : ℤ → ℤ → ℤ → Except PyErr Bound) (hem tol : ℤ) (m : Mag) :
    Except PyErr (Bound × ℤ) :=
  match given with
  | some b => .ok (b, if hem = 0 then b.bnd.hem else hem)
  | none => do
    let first ← pyIdx m.time 0
    let last ← pyIdx m.time (-1)
    let h ← if hem = 0 then chooseHem m.mlat else pure hem
    let b ← make (first - (tol + 1000000)) (last + (tol + 1000000)) h
    pure (b, h)

/-- `supermag2ascii_ocb` of a file that can be opened and a usable output name (`supermag.py` 82-204).  Without a data
section the table is the empty dictionary: `mdata['DATETIME']` raises KeyError, with a given boundary `mdata['MLT']` does,
unless the boundary has no records. -/
noncomputable def smag2ascii (float : Conv) (lines : List Name) (given : Option Bound)
    (make : ℤ → ℤ → ℤ → Except PyErr Bound) (hem tol : ℤ) (scale : Option (F → F → F → F)) : Except PyErr Out := do
  match ← Smag.load float lines with
  | (_, none) =>
    match given with
    | none => .error .keyError
    | some b => if b.cyc.records = 0 then .ok .nothing else .error .keyError
  | (_, some t) =>
    let (b, h) ← setup given make hem tol (ofTable t)
    write b h tol scale (ofTable t)

end Ocb.SmagOut
