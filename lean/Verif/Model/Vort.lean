import Verif.Model.TimeText

/-!
# Model of the reader of `ocbpy/instruments/vort.py`

A file is the list of its lines, each split at white space.  `float` is the conversion of one text to a number
(`none` for a ValueError; NaN is the number `none`; infinities are not modelled).
-/

set_option autoImplicit false

namespace Ocb.Vort

open Ocb.Files (Name)
open Ocb.Text (readInt strptime orValueError maxStamp stamp)

/-- A float. -/
abbrev F := Option ℝ

/-- A line after `split()`. -/
abbrev Line := List Name

/-- The conversion to float. -/
abbrev Conv := Name → Option F

/-- A failing conversion. -/
def toFloat (float : Conv) (n : Name) : Except PyErr F :=
  match float n with
  | some x => .ok x
  | none => .error .valueError

/-- `vkeys` (`vort.py` 245-253), the numeric keys taken from the lines. -/
def numKeys (saveAll : Bool) : List String :=
  ["VORTICITY", "MLT", "CENTRE_MLAT"] ++ if saveAll then
    ["R1BM1", "R1BM2", "R2BM1", "R2BM2", "AREA", "CENTRE_GLAT", "CENTRE_GLON", "C1_GLAT", "C1_GLON", "C2_GLAT",
      "C2_GLON", "C3_GLAT", "C3_GLON", "C4_GLAT", "C4_GLON", "CENTRE_MLON", "C1_MLAT", "C1_MLON", "C2_MLAT", "C2_MLON",
      "C3_MLAT", "C3_MLON", "C4_MLAT", "C4_MLON"] else []

/-- `bkeys` (`vort.py` 258-265): the columns of the three lines of an entry. -/
def bkeys1 : List String := ["R1BM1", "R1BM2", "R2BM1", "R2BM2", "AREA", "VORTICITY", "MLT"]
def bkeys2 : List String := ["GFLG", "CENTRE_GLAT", "CENTRE_GLON", "C1_GLAT", "C1_GLON", "C2_GLAT", "C2_GLON", "C3_GLAT",
  "C3_GLON", "C4_GLAT", "C4_GLON"]
def bkeys3 : List String := ["MFLG", "CENTRE_MLAT", "CENTRE_MLON", "C1_MLAT", "C1_MLON", "C2_MLAT", "C2_MLON", "C3_MLAT",
  "C3_MLON", "C4_MLAT", "C4_MLON"]

/-- The dictionary of lists. -/
structure Table where
  year : List ℤ
  month : List ℤ
  day : List ℤ
  uth : List F
  dtime : List ℤ
  col : String → List F

/-- `vdata` before the first line. -/
def Table.empty : Table := ⟨[], [], [], [], [], fun _ => []⟩

/-- What the date line says (`vort.py` 288-296). -/
structure Head where
  yy : ℤ
  mm : ℤ
  dd : ℤ
  hh : F
  dtime : ℤ

/-- The time of a block (`vort.py` 294-296).  Simplification: no rounding in `hh * 3600.0`. -/
noncomputable def blockTime (y m d : Name) (hh : F) : Except PyErr ℤ :=
  match strptime (y ++ ' ' :: (m ++ ' ' :: d)) "%Y %m %d".toList with
  | .error _ => .error .valueError
  | .ok t =>
    match hh with
    | none => .error .valueError
    | some h =>
      if stamp 1 0 0 0 0 ≤ t + ⌊h * 3600⌋ * 1000000 ∧ t + ⌊h * 3600⌋ * 1000000 ≤ maxStamp then
        .ok (t + ⌊h * 3600⌋ * 1000000)
      else .error .overflowError

/-- The date line (`vort.py` 281-296). -/
noncomputable def dateLine (float : Conv) (l : Line) : Except PyErr Head :=
  match l with
  | [y, m, d, h] => do
    let yy ← readInt y
    let mm ← readInt m
    let dd ← readInt d
    let hh ← toFloat float h
    let t ← blockTime y m d hh
    return ⟨yy, mm, dd, hh, t⟩
  | _ => .error .ioError

/-- The line with the number of entries (`vort.py` 303-311). -/
def countLine (l : Line) : Except PyErr ℤ :=
  match l with
  | [n] => readInt n
  | _ => .error .ioError

/-- The time columns get one more value (`vort.py` 322-326). -/
def addTime (h : Head) (t : Table) : Table :=
  { t with year := t.year ++ [h.yy], month := t.month ++ [h.mm], day := t.day ++ [h.dd], uth := t.uth ++ [h.hh]
           dtime := t.dtime ++ [h.dtime] }

/-- `vdata[gk].append(float(vsplit[ik]))` for all wanted columns of a line (`vort.py` 338-342). -/
def addCols (float : Conv) (keys : List String) : List (String × Name) → Table → Except PyErr Table
  | [], t => .ok t
  | (k, n) :: rest, t =>
    if k ∈ keys then
      match toFloat float n with
      | .error e => .error e
      | .ok x => addCols float keys rest { t with col := fun c => if c = k then t.col c ++ [x] else t.col c }
    else addCols float keys rest t

/-- One line of an entry (`vort.py` 329-342). -/
def dataLine (float : Conv) (keys bk : List String) (l : Line) (t : Table) : Except PyErr Table :=
  if l.length = bk.length then addCols float keys (bk.zip l) t else .error .ioError

/-- What the reader expects: a date line; the number of entries; the first, second or third line of an entry, with the
number of entries left including this one and whether it is the first of its block. -/
inductive St where
  | date
  | count (h : Head)
  | one (h : Head) (left : ℕ) (first : Bool)
  | two (h : Head) (left : ℕ)
  | three (h : Head) (left : ℕ)

/-- One line, in the order of the loops of `vort.py` 279-353.  With no entries the block ends at once. -/
noncomputable def step (float : Conv) (keys : List String) (s : St × Table) (l : Line) : Except PyErr (St × Table) :=
  match s with
  | (.date, t) => do
    let h ← dateLine float l
    return (.count h, t)
  | (.count h, t) => do
    let n ← countLine l
    return (if n ≤ 0 then .date else .one h n.toNat true, t)
  | (.one h n _, t) => do
    let t ← dataLine float keys bkeys1 l (addTime h t)
    return (.two h n, t)
  | (.two h n, t) => do
    let t ← dataLine float keys bkeys2 l t
    return (.three h n, t)
  | (.three h n, t) => do
    let t ← dataLine float keys bkeys3 l t
    return (if n ≤ 1 then .date else .one h (n - 1) false, t)

/-- All lines. -/
noncomputable def run (float : Conv) (keys : List String) : St × Table → List Line → Except PyErr (St × Table)
  | s, [] => .ok s
  | s, l :: ls =>
    match step float keys s l with
    | .error e => .error e
    | .ok s => run float keys s ls

/-- The end of the file: inside the loop over the entries the empty line is an unexpected one (`vort.py` 331-335); before
it the outer loop ends (line 279). -/
def atEnd : St × Table → Except PyErr Table
  | (.date, t) => .ok t
  | (.count _, t) => .ok t
  | (.one _ _ true, t) => .ok t
  | _ => .error .ioError

/-- The header lines are skipped (`vort.py` 273-275). -/
def skipHeader : List Line → List Line
  | [] => []
  | l :: ls => if l.head? = some "#".toList then skipHeader ls else l :: ls

/-- Every list has an entry (`vort.py` 356-361). -/
def filled (keys : List String) (t : Table) : Bool :=
  !t.year.isEmpty && !t.month.isEmpty && !t.day.isEmpty && !t.uth.isEmpty && !t.dtime.isEmpty &&
    keys.all fun k => !(t.col k).isEmpty

/-- `load_vorticity_ascii_data` (`vort.py` 216-363) of a file that passes `test_file`; `none` is None.  Simplification: the
order of the appends within a line is that of the columns, not that of a set. -/
noncomputable def load (float : Conv) (saveAll : Bool) (lines : List Line) : Except PyErr (Option Table) :=
  match run float (numKeys saveAll) (.date, Table.empty) (skipHeader lines) with
  | .error e => .error e
  | .ok s =>
    match atEnd s with
    | .error e => .error e
    | .ok t => .ok (if filled (numKeys saveAll) t then some t else none)

end Ocb.Vort
