import Verif.Model.Load
import Verif.Model.Files
import Verif.Model.Supermag

/-!
# Model of the constructors `OCBoundary` and `EABoundary`, from the arguments and the boundary files to the object, and of
their texts

`Fn` and `Kw` are the correction functions and the dictionaries of their keyword arguments.
-/

set_option autoImplicit false

namespace Ocb.Init

open Ocb.Files (Name lower Cal)
open Ocb.Text (readInt convertTime)
open Ocb.Vort (F Conv)
open Ocb.Smag (words)
open Ocb.Coord (FnArg)

/-- An argument that should be a text: None, a text, or something else without a method `lower`. -/
inductive Arg where
  | none
  | text (n : Name)
  | other
  deriving DecidableEq

/-- The arguments (`_boundary.py` 124-126, 923-925).  `lat = none` is None. -/
structure Args (Fn Kw : Type) where
  filename : Arg
  instrument : Arg
  hem : ℤ
  lat : Option ℝ
  stime : Option ℤ
  etime : Option ℤ
  rfunc : FnArg Fn
  kwargs : FnArg Kw

/-- Everything outside: the calendar, the boundary directory with its name, whether a file passes `test_file`, the lines of
the files, cut into cells and without comments, and the conversion of texts to floats; the two corrections of the library
and the empty dictionary. -/
structure World (Fn Kw : Type) where
  cal : Cal
  listing : List (Name × Bool)
  dir : Name
  good : Name → Bool
  lines : Name → List (List Name)
  float : Conv
  circular : Fn
  elliptical : Fn
  noKw : Kw

/-- A value of a column. -/
inductive Cell where
  | num (x : F)
  | int (z : ℤ)
  | txt (n : Name)

/-- A row by the names of the columns. -/
abbrev Row := List (Name × Cell)

/-- The object.  `dtime = none` is None; a limit `none` is infinite; the attributes with the columns of the file are in
`rows`, one entry per record. -/
structure Obj (Fn Kw : Type) where
  filename : Option Name
  instrument : Option Name
  hem : ℤ
  lat : ℝ
  records : ℕ
  recInd : ℤ
  dtime : Option (List ℤ)
  rows : List Row
  minFom : Option ℝ
  maxFom : Option ℝ
  rfunc : FnArg Fn
  kwargs : FnArg Kw

/-- What `inst_defaults` gives and sets (`_boundary.py` 288-326). -/
structure Defaults where
  hlines : ℕ
  cols : Name
  fmt : Name
  minFom : Option ℝ
  maxFom : Option ℝ

/-- `inst_defaults` (`_boundary.py` 288-326) -/
noncomputable def instDefaults (inst : Option Name) : Defaults :=
  if inst = some "image".toList then
    ⟨0, "year soy num_sectors phi_cent r_cent r a r_err fom".toList, [], none, some 5⟩
  else if inst = some "ampere".toList then ⟨0, "date time r x y fom".toList, "%Y%m%d %H:%M".toList, some (15 / 100), none⟩
  else if inst = some "dmsp-ssj".toList then
    ⟨1, "sc date time r x y fom x_1 y_1 x_2 y_2".toList, "%Y-%m-%d %H:%M:%S".toList, some 3, none⟩
  else ⟨0, [], [], none, none⟩

/-- The default of the argument `ocb_cols` of `load` (`_boundary.py` 329) -/
def loadCols : Name := "year soy num_sectors phi_cent r_cent r a r_err fom".toList

/-- How the times are given: `dflag` (`_boundary.py` 356-369) -/
inductive Flag where
  | soy
  | date
  | missing
  deriving DecidableEq

/-- `dflag` (`_boundary.py` 359-365) -/
def flag (cols : List Name) : Flag :=
  if "soy".toList ∈ cols ∧ "year".toList ∈ cols then .soy
  else if "date".toList ∈ cols ∧ "time".toList ∈ cols then .date
  else .missing

/-- One cell with its type in `ldtype` (`_boundary.py` 357-365).  `genfromtxt` puts NaN and -1 for texts that are no
numbers, and cuts texts to fifty letters. -/
def cell (float : Conv) (fl : Flag) (name w : Name) : Cell :=
  if name = "num_sectors".toList ∨ fl = .soy ∧ name = "year".toList then
    .int (match readInt w with
      | .ok z => z
      | .error _ => -1)
  else if fl = .date ∧ (name = "date".toList ∨ name = "time".toList) then .txt (w.take 50)
  else .num ((float w).getD none)

/-- The rows of the file by names (`_boundary.py` 372-374).  Empty lines are skipped; columns beyond the names are ignored;
fewer columns, or rows of different lengths, are a ValueError.  Simplification: the names are distinct. -/
def readRows (float : Conv) (fl : Flag) (cols : List Name) (lines : List (List Name)) : Except PyErr (List Row) :=
  match lines.filter (· ≠ []) with
  | [] => .ok []
  | r :: rs =>
    if rs.all (fun r' => r'.length == r.length) && decide (cols.length ≤ r.length) then
      .ok ((r :: rs).map fun ws => (cols.zip ws).map fun p => (p.1, cell float fl p.1 p.2))
    else .error .valueError

/-- A column of whole numbers in a row -/
def intAt (k : Name) (r : Row) : Option ℤ :=
  match r.lookup k with
  | some (.int z) => some z
  | _ => none

/-- A column of floats in a row -/
def numAt (k : Name) (r : Row) : F :=
  match r.lookup k with
  | some (.num x) => x
  | some (.int z) => some z
  | _ => none

/-- A column of texts in a row -/
def txtAt (k : Name) (r : Row) : Option Name :=
  match r.lookup k with
  | some (.txt n) => some n
  | _ => none

/-- The time of a row (`_boundary.py` 388-394).  NaN seconds cannot be divided into days. -/
noncomputable def rowTime (fl : Flag) (fmt : Name) (r : Row) : Except PyErr ℤ :=
  match fl with
  | .soy =>
    match numAt "soy".toList r with
    | none => .error .valueError
    | some s => convertTime (intAt "year".toList r) (some s) none none none none fmt
  | _ => convertTime none none none none (txtAt "date".toList r) (txtAt "time".toList r) fmt

/-- The centre in polar coordinates, if the row has x and y (`_boundary.py` 403-418) -/
noncomputable def addCentre (cols : List Name) (r : Row) : Row :=
  if "x".toList ∈ cols ∧ "y".toList ∈ cols then
    let p : Option (ℝ × ℝ) :=
      match numAt "x".toList r, numAt "y".toList r with
      | some x, some y => some (Ocb.Coord.polarCentre x y)
      | _, _ => none
    ("r_cent".toList, .num (p.map Prod.fst)) :: ("phi_cent".toList, .num (p.map Prod.snd)) :: r
  else r

/-- The keyword arguments per record (`_boundary.py` 435-445) -/
def setKw {Kw : Type} (noKw : Kw) (n : ℕ) : FnArg Kw → Except PyErr (List Kw)
  | .dflt => .ok (List.replicate n noKw)
  | .one k => .ok (List.replicate n k)
  | .array ks => if ks.length = n then .ok ks else .error .valueError
  | .other => .error .valueError

/-- `load` (`_boundary.py` 328-451) for an object with a file name.  Without time columns nothing is done. -/
noncomputable def loadObj {Fn Kw : Type} (W : World Fn Kw) (o : Obj Fn Kw) (file : Name) (hlines : ℕ) (ocbCols fmt : Name)
    (stime etime : Option ℤ) : Except PyErr (Obj Fn Kw) :=
  let cols := words ocbCols
  match flag cols with
  | .missing => .ok o
  | fl => do
    let rows ← readRows W.float fl cols ((W.lines file).drop hlines)
    if rows.length = 1 then .error .indexError
    let times ← Ocb.mapE (rowTime fl fmt) rows
    let l ← Ocb.Coord.load W.circular W.elliptical (String.ofList (o.instrument.getD [])) o.rfunc
      (times.zip (rows.map (addCentre cols))) stime etime
    let ks ← setKw W.noKw l.records o.kwargs
    return { o with recInd := l.recInd, records := l.records, dtime := some l.dtime, rows := l.rows, rfunc := .array l.rfunc,
                    kwargs := .array ks }

/-- `get_default_file` with the directory (`files.py` 110-206) -/
def defaultFile {Fn Kw : Type} (W : World Fn Kw) (A : Args Fn Kw) (inst bound : Name) : Except PyErr (Option Name × Name) :=
  (Ocb.Files.getDefault W.cal W.listing A.stime A.etime A.hem inst bound).map fun p =>
    (p.1.map fun n => W.dir ++ '/' :: n, p.2)

/-- The file and the instrument (`_boundary.py` 128-155) -/
def pick {Fn Kw : Type} (W : World Fn Kw) (A : Args Fn Kw) : Except PyErr (Option Name × Option Name) :=
  match A.instrument with
  | .text i =>
    let found : Except PyErr (Option Name × Name) :=
      match A.filename with
      | .text f => if lower f = "default".toList then defaultFile W A (lower i) "ocb".toList else .ok (some f, lower i)
      | _ => .ok (none, lower i)
    found.map fun p => (p.1.filter W.good, some p.2)
  | _ => .ok (none, none)

/-- `np.sign` -/
noncomputable def sgn (x : ℝ) : ℤ := if 0 < x then 1 else if x < 0 then -1 else 0

/-- `OCBoundary.__init__` (`_boundary.py` 124-193).  The sign of None is a TypeError. -/
noncomputable def ocbInit {Fn Kw : Type} (W : World Fn Kw) (A : Args Fn Kw) : Except PyErr (Obj Fn Kw) := do
  let p ← pick W A
  if A.hem ≠ 1 ∧ A.hem ≠ -1 then .error .valueError
  let d := instDefaults p.2
  match A.lat with
  | none => .error .typeError
  | some x =>
    let o : Obj Fn Kw := ⟨p.1, p.2, A.hem, if sgn x ≠ A.hem then -x else x, 0, 0, none, [], d.minFom, d.maxFom, A.rfunc, A.kwargs⟩
    match p.1 with
    | none => return o
    | some file =>
      if d.cols ≠ [] then loadObj W o file d.hlines d.cols d.fmt A.stime A.etime
      else loadObj W o file 0 loadCols [] A.stime A.etime

/-- `EABoundary._set_default_rfunc` (`_boundary.py` 947-971) -/
def eabDefault {Fn Kw : Type} (W : World Fn Kw) : Arg → Except PyErr (FnArg Fn)
  | .text i =>
    if i = [] ∨ i = "default".toList ∨ i = "image".toList ∨ i = "dmsp-ssj".toList ∨ i = "ampere".toList then .ok (.one W.circular)
    else .error .valueError
  | _ => .ok .dflt

/-- The function that is passed on (`_boundary.py` 927-932) -/
def eabRfunc {Fn Kw : Type} (W : World Fn Kw) (A : Args Fn Kw) : Except PyErr (FnArg Fn) :=
  match A.rfunc with
  | .dflt => eabDefault W A.instrument
  | r => .ok r

/-- `EABoundary.__init__` (`_boundary.py` 923-945) -/
noncomputable def eabInit {Fn Kw : Type} (W : World Fn Kw) (A : Args Fn Kw) : Except PyErr (Obj Fn Kw) := do
  let rf ← eabRfunc W A
  let A := { A with rfunc := rf }
  match A.filename, A.instrument with
  | .text f, .text i =>
    if lower f = "default".toList then do
      let p ← defaultFile W A i "eab".toList
      ocbInit W { A with filename := (match p.1 with | some n => .text n | none => .none), instrument := .text p.2 }
    else ocbInit W A
  | _, _ => ocbInit W A

/-! ### Texts -/

/-- A float written with "{:f}" and read again -/
noncomputable def round6 (x : ℝ) : ℝ := (round (x * 1000000) : ℝ) / 1000000

/-- How `__repr__` writes an argument with one entry per record (`_boundary.py` 203-226): once if all entries have the same
text.  A function cannot be iterated over. -/
def reprFns {Fn : Type} (name : Fn → Name) : FnArg Fn → Except PyErr (FnArg Fn)
  | .dflt => .ok .dflt
  | .one _ => .error .typeError
  | .array fs => .ok (match fs with
    | [] => .array []
    | f :: rest => if rest.all (fun g => name g == name f) then .one f else .array fs)
  | .other => .error .typeError

/-- The same for the keyword arguments (`_boundary.py` 216-226); iterating over a dictionary gives its keys, which are not a
dictionary.  Simplification: the dictionary is not empty. -/
def reprKw {Kw : Type} (text : Kw → Name) : FnArg Kw → FnArg Kw
  | .dflt => .dflt
  | .array ks => match ks with
    | [] => .array []
    | k :: rest => if rest.all (fun g => text g == text k) then .one k else .array ks
  | _ => .other

/-- The arguments that `__repr__` writes (`_boundary.py` 195-235).  Simplification: the names of functions and the texts of
dictionaries denote what they were taken from. -/
noncomputable def reprArgs {Fn Kw : Type} (name : Fn → Name) (text : Kw → Name) (o : Obj Fn Kw) : Except PyErr (Args Fn Kw) := do
  let times ← match o.dtime with
    | none => .ok (none, none)
    | some l => match l.head?, l.getLast? with
      | some s, some e => .ok (some s, some e)
      | _, _ => .error .indexError
  let rf ← reprFns name o.rfunc
  return ⟨match o.filename with | some n => .text n | none => .none, match o.instrument with | some n => .text n | none => .none,
    o.hem, some (round6 o.lat), times.1, times.2, rf, reprKw text o.kwargs⟩

/-- `irep`, the records that `__str__` shows (`_boundary.py` 258-262); `np.unique` sorts and drops repetitions. -/
def shown (records : ℕ) : Except PyErr (List ℕ) :=
  if records = 1 then .ok [0]
  else (Ocb.mapE (fun i => Ocb.pyIdx (List.range records) i) [0, 1, -2, -1]).map fun l => (l.mergeSort (· ≤ ·)).dedup

/-- `name.split(".")[-1]` -/
def lastPart (n : Name) : Name := (n.reverse.takeWhile (· ≠ '.')).reverse

/-- The name of a function with its module (`_boundary.py` 207, 275) -/
def fullName {Fn : Type} (mod short : Fn → Name) (f : Fn) : Name := mod f ++ '.' :: short f

/-- The functions with their keywords that `__str__` lists (`_boundary.py` 272-284): for each full name the keywords of the
records whose function has the last part of it as a name.  `mod` is `__module__`, `short` is `__name__`; both lists come
from sets, so the order has no meaning. -/
def listed {Fn Kw : Type} (mod short : Fn → Name) (text : Kw → Name) (l : List (Fn × Kw)) : List (Name × Name) :=
  ((l.map fun p => fullName mod short p.1).dedup).flatMap fun ff =>
    (((l.filter fun p => short p.1 == lastPart ff).map fun p => text p.2).dedup).map fun kk => (ff, kk)

end Ocb.Init
