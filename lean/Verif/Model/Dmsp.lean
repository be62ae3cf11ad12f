import Verif.Model.Coord
import Verif.Model.Files

/-!
# Model of `ocbpy/boundaries/dmsp_ssj_files.py`

The choice of the daily DMSP files and the conversion of satellite passes to boundary circles.  Downloading, the
directory and the names of the output files are left out.  File names are lists of characters as in `Verif.Model.Files`.
-/

set_option autoImplicit false

namespace Ocb.Dmsp

open Ocb.Time Ocb.Coord Ocb.Files

/-- `s.split(sep)` for a non-empty separator.  The number counts the characters of a separator still to be skipped. -/
def splitSub (sep : Name) : ℕ → Name → List Name
  | _, [] => [[]]
  | k + 1, _ :: cs => splitSub sep k cs
  | 0, c :: cs =>
    if sep.isPrefixOf (c :: cs) then [] :: splitSub sep (sep.length - 1) cs
    else match splitSub sep 0 cs with
      | [] => [[c]]
      | p :: ps => (c :: p) :: ps

/-- What is used of the clock and the conversions: `int(s)` and `datetime.strptime(s, '%Y%m%d')`, `none` for a
ValueError; `y1900` is 1 January 1900 and `now` the result of `utcnow`. -/
structure Env where
  int : Name → Option ℤ
  date : Name → Option ℤ
  y1900 : ℤ
  now : ℤ

/-- A failing conversion. -/
def orValue {α : Type} : Option α → Except PyErr α
  | some a => .ok a
  | none => .error .valueError

/-- `fname.split('dmsp-f')[-1].split('_ssj')[0]` (`dmsp_ssj_files.py` 209). -/
def satText (n : Name) : Name :=
  ((splitSub "_ssj".toList 0 ((splitSub "dmsp-f".toList 0 n).getLastD [])).headD [])

/-- The test on the time of the file (`dmsp_ssj_files.py` 212-222).  After lines 202-206 neither limit is None. -/
def timeTest (env : Env) (n : Name) (s e : ℤ) : Except PyErr Bool := do
  let p ← part (split n) 3
  let t ← orValue (env.date p)
  return decide (s ≤ t ∧ t < e)

/-- `evaluate_dmsp_boundary_file` (`dmsp_ssj_files.py` 175-224). -/
def evaluate (env : Env) (n : Name) (stime etime : Option ℤ) (sats : List ℤ) : Except PyErr Bool := do
  let s := stime.getD env.y1900
  let e := etime.getD env.now
  let id ← orValue (env.int (satText n))
  if id ∈ sats then timeTest env n s e else return false

/-- The loop over the names in the archive (`dmsp_ssj_files.py` 163-165). -/
def filterE (p : Name → Except PyErr Bool) : List Name → Except PyErr (List Name)
  | [] => .ok []
  | n :: ns => do
    let b ← p n
    let r ← filterE p ns
    return (if b then n :: r else r)

/-- The selection made by `fetch_ssj_boundary_files` from the names in the archive (`dmsp_ssj_files.py` 90-102 and
155-165).  Simplification: the directory is left out of the returned names. -/
def fetch (env : Env) (names : List Name) (stime etime : Option ℤ) (sats : Option (List ℤ)) : Except PyErr (List Name) :=
  if (sats.getD [16, 17, 18]).all (· ∈ [(16 : ℤ), 17, 18]) then
    if sats = none ∧ stime = none ∧ etime = none then .ok names
    else filterE (fun n => evaluate env n stime etime (sats.getD [16, 17, 18])) names
  else .error .valueError

/-- Which boundary: 'PO' (poleward, the OCB) or 'EQ' (equatorward, the EAB). -/
inductive Bd where
  | po
  | eq
  deriving DecidableEq

/-- One line of a CSV file: the columns used (`dmsp_ssj_files.py` 358-378).  Times are seconds of the day. -/
structure Pass where
  hem : ℝ
  fom : ℝ
  ut : Bd → ℝ × ℝ
  lat : Bd → ℝ × ℝ
  lon : Bd → ℝ × ℝ

/-- One CSV file: spacecraft and date from its name (the date in seconds), whether the data have as many columns as the
header, and the lines. -/
structure Csv where
  sc : ℤ
  date : ℝ
  wide : Bool
  rows : List Pass

/-- One line of a boundary file, before the numbers are rounded to three decimals and the time is cut to seconds
(`dmsp_ssj_files.py` 408-417). -/
structure Line where
  sc : ℤ
  time : ℝ
  r : ℝ
  x : ℝ
  y : ℝ
  fom : ℝ
  x1 : ℝ
  y1 : ℝ
  x2 : ℝ
  y2 : ℝ

/-- Cartesian coordinates of a magnetic location (`dmsp_ssj_files.py` 397-399).  Simplification: no NaN. -/
noncomputable def toXY (lat mlt : ℝ) : Except PyErr (ℝ × ℝ) := do
  let theta ← hr2rad (mlt - 6) (2 * Real.pi)
  return ((90 - |lat|) * Real.cos theta, (90 - |lat|) * Real.sin theta)

/-- The line for one pass and boundary (`dmsp_ssj_files.py` 388-417); `mag lat lon time` is
`aacgmv2.get_aacgm_coord_arr` at the reference altitude: magnetic latitude and local time. -/
noncomputable def passLine (mag : ℝ → ℝ → ℝ → ℝ × ℝ) (f : Csv) (p : Pass) (b : Bd) : Except PyErr Line := do
  let time := f.date + 1 / 2 * ((p.ut b).2 + (p.ut b).1)
  let m1 := mag (p.lat b).1 (p.lon b).1 time
  let m2 := mag (p.lat b).2 (p.lon b).2 time
  let c1 ← toXY m1.1 m1.2
  let c2 ← toXY m2.1 m2.2
  return { sc := f.sc, time := time
           r := Real.sqrt ((c1.1 - c2.1) ^ 2 + (c1.2 - c2.2) ^ 2) / 2
           x := 1 / 2 * (c1.1 + c2.1), y := 1 / 2 * (c1.2 + c2.2), fom := p.fom
           x1 := c1.1, y1 := c1.2, x2 := c2.1, y2 := c2.2 }

/-- The four output files, by hemisphere and boundary. -/
abbrev Out := ℤ → Bd → List Line

/-- `fpout[hh][bb].write(out_line)` -/
def write (o : Out) (h : ℤ) (b : Bd) (l : Line) : Out :=
  fun h' b' => if h' = h ∧ b' = b then o h' b' ++ [l] else o h' b'

/-- The key of the dictionary of files for a hemisphere read as a float (`dmsp_ssj_files.py` 420). -/
noncomputable def key (h : ℝ) : Except PyErr ℤ :=
  if h = 1 then .ok 1 else if h = -1 then .ok (-1) else .error .keyError

/-- The body of the loop over the boundaries (`dmsp_ssj_files.py` 387-420). -/
noncomputable def writeOne (mag : ℝ → ℝ → ℝ → ℝ × ℝ) (f : Csv) (p : Pass) (b : Bd) (o : Out) : Except PyErr Out := do
  let l ← passLine mag f p b
  let h ← key p.hem
  return write o h b l

/-- The loop over the lines of a file (`dmsp_ssj_files.py` 382-420). -/
noncomputable def writeRows (mag : ℝ → ℝ → ℝ → ℝ × ℝ) (f : Csv) : List Pass → Out → Except PyErr Out
  | [], o => .ok o
  | p :: ps, o => do
    let o ← writeOne mag f p .po o
    let o ← writeOne mag f p .eq o
    writeRows mag f ps o

/-- The test on the shape of the loaded data (`dmsp_ssj_files.py` 355-356): `numpy.loadtxt` drops the dimensions of
length one, so the data of a file with a single line, or none, are one-dimensional. -/
def readable (f : Csv) : Bool := f.wide && decide (2 ≤ f.rows.length)

/-- The loop over the input files (`dmsp_ssj_files.py` 336-420); unreadable files are left out with a warning. -/
noncomputable def writeFiles (mag : ℝ → ℝ → ℝ → ℝ × ℝ) : List Csv → Out → Except PyErr Out
  | [], o => .ok o
  | f :: fs, o =>
    if readable f then do
      let o ← writeRows mag f f.rows o
      writeFiles mag fs o
    else writeFiles mag fs o

/-- `format_ssj_boundary_files` (`dmsp_ssj_files.py` 227-431): the contents of the four files below the header.
Simplification: the files all exist; the names of the output files are left out. -/
noncomputable def format (mag : ℝ → ℝ → ℝ → ℝ × ℝ) (files : List Csv) : Except PyErr Out :=
  if files.isEmpty then .error .valueError else writeFiles mag files fun _ _ => []

end Ocb.Dmsp
