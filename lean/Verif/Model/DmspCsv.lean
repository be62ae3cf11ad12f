import Verif.Model.Dmsp
import Verif.Model.Fetch

/-!
# Model of how `format_ssj_boundary_files` reads the CSV files

`Dmsp.Csv` has the values of a file; here they are taken from its name and its lines.
-/

set_option autoImplicit false

namespace Ocb.DmspCsv

open Ocb.Files (Name part)
open Ocb.Dmsp (Bd Pass Csv Env Out orValue readable writeRows)
open Ocb.Fetch (sections)

/-- `s.split(',')` -/
def commas : Name → List Name
  | [] => [[]]
  | c :: cs =>
    if c = ',' then [] :: commas cs
    else match commas cs with
      | [] => [[c]]
      | p :: ps => (c :: p) :: ps

/-- How often the loop over the lines with comments runs (`dmsp_ssj_files.py` 345-350); `skiprows` is one more.  The empty
text at the end of the file ends the loop. -/
def skipped (lines : List Name) : ℕ := (lines.takeWhile fun l => l.head? = some '#').length

/-- `header_list` (`dmsp_ssj_files.py` 348-352). -/
def header (lines : List Name) : List Name := commas (((lines.drop (skipped lines)).headD []).takeWhile (· ≠ '\n'))

/-- The cells of the lines that hold data: comments and empty lines are left out.  Library behaviour of `numpy.loadtxt`.
Simplification: a line with nothing but blanks is not taken as empty. -/
def dataCells (lines : List Name) : List (List Name) :=
  ((lines.map fun l => l.takeWhile fun c => c ≠ '#' ∧ c ≠ '\n').filter (· ≠ [])).map commas

/-- `np.loadtxt(infile, skiprows=skiprows, delimiter=',')` (`dmsp_ssj_files.py` 355): rows of one length, and only numbers,
else a ValueError.  `num` converts a text to a float, `none` for a ValueError.  Simplification: no NaN. -/
def loadtxt (num : Name → Option ℝ) (lines : List Name) : Except PyErr (List (List ℝ)) :=
  let rows := dataCells (lines.drop (skipped lines + 1))
  if rows.all fun r => r.length == (rows.headD []).length then mapE (mapE fun w => orValue (num w)) rows
  else .error .valueError

/-- `header_list.index(name)` -/
def index (hd : List Name) (name : Name) : Except PyErr ℕ :=
  if name ∈ hd then .ok (hd.idxOf name) else .error .valueError

/-- The keys of the boundaries (`dmsp_ssj_files.py` 300). -/
def bdName : Bd → Name
  | .po => "PO".toList
  | .eq => "EQ".toList

/-- The name of a column of a boundary, as in `'UTSec {:s}{:d}'.format(bb, i)` -/
def colName (pre : Name) (b : Bd) (i : Char) : Name := pre ++ ' ' :: (bdName b ++ [i])

/-- The places of the columns of both boundaries (`dmsp_ssj_files.py` 360-369). -/
def places (hd : List Name) (pre : Name) : Except PyErr (Bd → ℕ × ℕ) := do
  let p1 ← index hd (colName pre .po '1')
  let p2 ← index hd (colName pre .po '2')
  let e1 ← index hd (colName pre .eq '1')
  let e2 ← index hd (colName pre .eq '2')
  return fun b => match b with
    | .po => (p1, p2)
    | .eq => (e1, e2)

/-- The value of a row in a column -/
def val (r : List ℝ) (i : ℕ) : ℝ := r.getD i 0

/-- The passes of the loaded data (`dmsp_ssj_files.py` 359-378). -/
def toPasses (hd : List Name) (data : List (List ℝ)) : Except PyErr (List Pass) := do
  let ut ← places hd "UTSec".toList
  let lat ← places hd "SC_GEOCENTRIC_LAT".toList
  let lon ← places hd "SC_GEOCENTRIC_LON".toList
  let hem ← index hd "hemisphere".toList
  let fom ← index hd "FOM".toList
  return data.map fun r =>
    { hem := val r hem, fom := val r fom
      ut := fun b => (val r (ut b).1, val r (ut b).2)
      lat := fun b => (val r (lat b).1, val r (lat b).2)
      lon := fun b => (val r (lon b).1, val r (lon b).2) }

/-- The data have two dimensions and as many columns as the header (`dmsp_ssj_files.py` 356): `loadtxt` drops dimensions of
length one. -/
def twoDim (hd : List Name) (data : List (List ℝ)) : Bool :=
  decide (2 ≤ data.length ∧ 2 ≤ (data.headD []).length ∧ (data.headD []).length = hd.length)

/-- One file: its name and its lines (`dmsp_ssj_files.py` 336-378).  The date is in seconds; the conversion of the name
gives microseconds. -/
noncomputable def readCsv (env : Env) (num : Name → Option ℝ) (n : Name) (lines : List Name) : Except PyErr Csv := do
  let s ← part (sections n) 0
  let sc ← orValue (env.int s)
  let d ← part (sections n) 3
  let date ← orValue (env.date d)
  let data ← loadtxt num lines
  if twoDim (header lines) data then do
    let rows ← toPasses (header lines) data
    return ⟨sc, (date : ℝ) / 1000000, true, rows⟩
  else return ⟨sc, (date : ℝ) / 1000000, false, []⟩

/-- The loop over the files, with reading (`dmsp_ssj_files.py` 336-420). -/
noncomputable def writeTexts (mag : ℝ → ℝ → ℝ → ℝ × ℝ) (env : Env) (num : Name → Option ℝ) :
    List (Name × List Name) → Out → Except PyErr Out
  | [], o => .ok o
  | (n, lines) :: fs, o => do
    let f ← readCsv env num n lines
    let o ← if readable f then writeRows mag f f.rows o else .ok o
    writeTexts mag env num fs o

/-- `format_ssj_boundary_files` from the names and the lines of the files (`dmsp_ssj_files.py` 279-431). -/
noncomputable def formatTexts (mag : ℝ → ℝ → ℝ → ℝ × ℝ) (env : Env) (num : Name → Option ℝ) (files : List (Name × List Name)) :
    Except PyErr Out :=
  if files.isEmpty then .error .valueError else writeTexts mag env num files fun _ _ => []

end Ocb.DmspCsv
