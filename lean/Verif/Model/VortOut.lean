import Verif.Model.Vort
import Verif.Model.Dual
import Verif.Model.Scaling
import Verif.Model.Pairs

/-!
# Model of `vort2ascii_ocb` (`ocbpy/instruments/vort.py` 30-213)

From the loaded table to the rows of the output file.  The values of a row are those before formatting.
-/

set_option autoImplicit false

namespace Ocb.VortOut

open Ocb.Vort (F Table Conv Line)
open Ocb.Coord (Rec DualObj DStore normalArr dualNormal selRec)
open Ocb.Cycle (Cycler drive)

/-- `np.sign` of a float; NaN stays NaN. -/
noncomputable def sgn (x : F) : Option ℤ := x.map fun v => (SignType.sign v : ℤ)

/-- `np.nanmax`, NaN if all are NaN. -/
noncomputable def nanMax (l : List F) : F := l.reduceOption.max?

/-- `np.nanmin`, NaN if all are NaN. -/
noncomputable def nanMin (l : List F) : F := l.reduceOption.min?

/-- The hemisphere found from the data (`vort.py` 113-122, the same as `supermag.py` 96-106).  Comparisons with NaN are
False, so that NaN ends in the ValueError. -/
noncomputable def chooseHem (lats : List F) : Except PyErr ℤ :=
  match sgn (nanMax lats) with
  | none => .error .valueError
  | some h =>
    match sgn (nanMin lats) with
    | none => .error .valueError
    | some h' => if h = 0 then .ok h' else if h ≠ h' then .error .valueError else .ok h

/-- A boundary object as used by the driver: hemisphere, records and how to step through them, the cursor, the reference
latitude of the OCB, the radii `ocb.r` or `ocb.ocb.r`, and `normal_coord` at a record: latitude, local time, radius
correction. -/
structure Bound where
  hem : ℤ
  cyc : Cycler
  cursor : ℤ
  blat : ℝ
  r : List ℝ
  place : ℤ → F → F → Except PyErr (F × F × F)

/-- An `OCBoundary`. -/
noncomputable def single (recs : List Rec) (hem : ℤ) (blat : ℝ) (cyc : Cycler) (cursor : ℤ) : Bound where
  hem := hem
  cyc := cyc
  cursor := cursor
  blat := blat
  r := recs.map Rec.r
  place k lat mlt := do
    let (out, _) ← normalArr (selRec recs k) [(lat, mlt)]
    pyIdx out 0

/-- The `DualBoundary` with its cursor at pair `k`: `rec_ind` sets the cursors of the members
(`_boundary.py` 1193-1207). -/
def atPair (D : DualObj) (k : ℤ) : DualObj :=
  { D with recInd := k, ocbRecInd := (D.ocbInd[k.toNat]?).getD 0, eabRecInd := (D.eabInd[k.toNat]?).getD 0 }

/-- No boundary location is stored. -/
def noStore : DStore := ⟨fun _ => [], none, none, none, none⟩

/-- A `DualBoundary`.  Simplification: no boundary locations are stored when `normal_coord` is called; what is stored
has no influence on the result, see `C64_good_partial`. -/
noncomputable def dual (D : DualObj) (hem : ℤ) (cyc : Cycler) (cursor : ℤ) : Bound where
  hem := hem
  cyc := cyc
  cursor := cursor
  blat := D.ocbLat
  r := D.ocbRecs.map Rec.r
  place k lat mlt := do
    let (out, _) ← dualNormal (atPair D k) noStore 0 [(lat, mlt)] false
    let o ← pyIdx out 0
    pure (o.1, o.2.1, o.2.2.2)

/-- `igood` (`vort.py` 138). -/
noncomputable def igood (lats : List F) (hem : ℤ) : List ℕ :=
  (List.range lats.length).filter fun i => decide (sgn ((lats[i]?).getD none) = some hem)

/-- `x[igood]`.  Simplification: positions that do not exist are dropped, where numpy raises IndexError; the columns of
a table that was read have one length. -/
def pick {α : Type} (idx : List ℕ) (l : List α) : List α := idx.filterMap fun i : ℕ => l[i]?

/-- The columns of a table at the positions (`vort.py` 149-151). -/
def pickTable (idx : List ℕ) (t : Table) : Table where
  year := pick idx t.year
  month := pick idx t.month
  day := pick idx t.day
  uth := pick idx t.uth
  dtime := pick idx t.dtime
  col k := pick idx (t.col k)

/-- The columns that `save_all` adds to a row. -/
structure Saved where
  year : ℤ
  month : ℤ
  day : ℤ
  uth : F
  col : String → F

/-- A row of the output file. -/
structure Row where
  time : ℤ
  saved : Option Saved
  lat : F
  mlt : F
  vort : F

/-- `scale_func`: None or a function of the value and the two radii. -/
abbrev Scale := Option (ℝ → ℝ → ℝ → ℝ)

/-- One row (`vort.py` 183-210).  The new value is NaN if one of the arguments of `scale_func` is. -/
noncomputable def row (b : Bound) (scale : Scale) (saveAll : Bool) (t : Table) (i : ℕ) (k : ℤ) : Except PyErr Row := do
  let lat ← pyIdx (t.col "CENTRE_MLAT") i
  let mlt ← pyIdx (t.col "MLT") i
  let o ← b.place k lat mlt
  let r ← pyIdx b.r k
  let v ← pyIdx (t.col "VORTICITY") i
  let nv : F := match scale with
    | none => v
    | some f => v.bind fun x => o.2.2.map fun c => f x (r + c) (90 - |b.blat|)
  let time ← pyIdx t.dtime i
  let saved ← if saveAll then do
      let y ← pyIdx t.year i
      let m ← pyIdx t.month i
      let d ← pyIdx t.day i
      let u ← pyIdx t.uth i
      pure (some ⟨y, m, d, u, fun k => ((t.col k)[i]?).getD none⟩)
    else pure none
  pure ⟨time, saved, o.1, o.2.1, nv⟩

/-- What the call leaves: no output file, or the rows of it. -/
inductive Out where
  | nothing
  | file (rows : List Row)

/-- `vort2ascii_ocb` after the table is read and the boundary is there (`vort.py` 132-213).
Simplification: the rows are computed after all pairs are known. -/
noncomputable def write (b : Bound) (hem : ℤ) (tol : ℤ) (scale : Scale) (saveAll : Bool) (t : Table) : Except PyErr Out :=
  if b.cyc.records = 0 then .ok .nothing
  else
    let good := igood (t.col "CENTRE_MLAT") hem
    if good.length ≠ (t.col "CENTRE_MLAT").length ∧ good.length = 0 then .ok .nothing
    else
      let t' := if good.length ≠ (t.col "CENTRE_MLAT").length then pickTable good t else t
      match drive b.cyc t'.dtime tol 0 b.cursor with
      | .error e => .error e
      | .ok l =>
        match mapE (fun p => row b scale saveAll t' p.1 p.2) l with
        | .error e => .error e
        | .ok rows => .ok (.file rows)

/-- Hemisphere and boundary (`vort.py` 107-130): `given` is the object passed by the caller, `make` loads one for a start
time, an end time and a hemisphere.  Times are in microseconds, `tol` too. -/
noncomputable def setup (given : Option Bound) (make : ℤ → ℤ → ℤ → Except PyErr Bound) (hem tol : ℤ) (t : Table) :
    Except PyErr (Bound × ℤ) :=
  match given with
  | some b => .ok (b, if hem = 0 then b.hem else hem)
  | none => do
    let first ← pyIdx t.dtime 0
    let last ← pyIdx t.dtime (-1)
    let h ← if hem = 0 then chooseHem (t.col "CENTRE_MLAT") else pure hem
    let b ← make (first - (tol + 1000000)) (last + (tol + 1000000)) h
    pure (b, h)

/-- `vort2ascii_ocb` of a file that can be opened and a usable output name (`vort.py` 97-213). -/
noncomputable def vort2ascii (float : Conv) (lines : List Line) (given : Option Bound)
    (make : ℤ → ℤ → ℤ → Except PyErr Bound) (hem tol : ℤ) (saveAll : Bool) (scale : Scale) : Except PyErr Out := do
  match ← Vort.load float saveAll lines with
  | none => .error .valueError
  | some t =>
    let (b, h) ← setup given make hem tol t
    write b h tol scale saveAll t

end Ocb.VortOut
