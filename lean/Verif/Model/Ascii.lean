import Verif.Model.Supermag

/-!
# Model of `load_ascii_data` in `ocbpy/instruments/general.py`

`float` is the conversion of one text to a number, as in `Verif.Model.Vort`.  `numpy.genfromtxt` is represented by the
cells of the rows it finds; that it drops dimensions of size one is modelled.
-/

set_option autoImplicit false

namespace Ocb.Ascii

open Ocb.Files (Name lower)
open Ocb.Text (readInt isWs decInt convertTime upper find fmtLen)
open Ocb.Vort (F Conv toFloat)
open Ocb.Smag (words)

/-- An entry of `ldtype`. -/
inductive Ty where
  | float
  | int
  | str (n : ℕ)
  deriving DecidableEq, Repr

/-- A value in the lists. -/
inductive Val where
  | int (z : ℤ)
  | num (x : F)
  | txt (n : Name)
  | time (t : ℤ)

/-- `astype` of a numpy text -/
def cast (float : Conv) : Ty → Name → Except PyErr Val
  | .float, w => (toFloat float w).map .num
  | .int, w => (readInt w).map .int
  | .str n, w => .ok (.txt (w.take n))

/-- The arguments (`general.py` 54-56).  The lists are those that the caller holds, None being the empty list.
Simplifications: column numbers are not negative; the text that separates the names is one letter; the mark of comments
is not empty. -/
structure Args where
  hlines : ℕ
  comments : Option Name
  hsplit : Option Char
  dateCols : List ℕ
  fmt : Option Name
  intCols : List ℕ
  strCols : List ℕ
  maxLen : ℕ
  header : List Name

/-- The file: whether it passes `test_file`, its lines, and the cells of the rows below the header as
`numpy.genfromtxt` splits them. -/
structure File where
  good : Bool
  lines : List Name
  rows : List (List Name)

/-- `s.strip()` -/
def strip (s : Name) : Name := ((s.dropWhile isWs).reverse.dropWhile isWs).reverse

/-- `datetime_fmt.split(" ")` (`general.py` 124) -/
def parts (fmt : Option Name) : List Name :=
  match fmt with
  | none => []
  | some f => f.splitOn ' '

/-- `dfmt_parts.index(case_part)` for one of the two special words (`general.py` 134-141) -/
def wordCol (f word : Name) : Except PyErr (List ℕ) :=
  match find word (upper f) with
  | none => .ok []
  | some i =>
    let p := (f.drop i).take word.length
    if p ∈ f.splitOn ' ' then .ok [(f.splitOn ' ').idxOf p] else .error .valueError

/-- `int_cols` after the additions (`general.py` 134-141) -/
def moreInts (a : Args) : Except PyErr (List ℕ) :=
  match a.fmt with
  | none => .ok a.intCols
  | some f => do
    let y ← wordCol f "YEAR".toList
    let s ← wordCol f "SOY".toList
    return a.intCols ++ y ++ s

/-- `max_str_length` after the adjustment (`general.py` 129-132) -/
def strLen (a : Args) : ℕ :=
  match a.fmt with
  | none => a.maxLen
  | some f => max a.maxLen (fmtLen f)

/-- `header` after the header lines are appended (`general.py` 147-148); past the end `readline` gives the empty text -/
def moreHeader (a : Args) (f : File) : List Name :=
  a.header ++ (List.range a.hlines).map fun i => strip (f.lines.getD i [])

/-- `s.split(sep)[0]` -/
def before (sep : Name) : Name → Name
  | [] => []
  | c :: cs => if sep.isPrefixOf (c :: cs) then [] else c :: before sep cs

/-- `keylist` (`general.py` 156-162); the line with the names is the last one of the header that was given, or of the
one read if none was given -/
def keyList (a : Args) (header : List Name) : List Name :=
  let k := if a.header = [] then header.getLastD [] else a.header.getLastD []
  let k := match a.comments with
    | none => k
    | some c => before c k
  let k := strip (k.filter (· ≠ '#'))
  match a.hsplit with
  | none => words k
  | some c => (k.splitOn c).filter (· ≠ [])

/-- `ldtype[icol] = t` for the columns of a list -/
def setTy (t : Ty) : List ℕ → List Ty → Except PyErr (List Ty)
  | [], l => .ok l
  | i :: is, l => if i < l.length then setTy t is (l.set i t) else .error .indexError

/-- `dt_keys` (`general.py` 176) -/
def dtKeys : List Name := ["datetime".toList, "DATETIME".toList, "DT".toList, "dt".toList]

/-- The first of these names that is not yet a key (`general.py` 178-180); the loop does not stop at the end -/
def freeKey (keys : List Name) : List Name → Except PyErr Name
  | [] => .error .indexError
  | k :: ks => if k ∈ keys then freeKey keys ks else .ok k

/-- The date columns become text (`general.py` 188-191) -/
def dateTys (n : ℕ) (ints : List ℕ) (ps : List Name) : List (ℕ × ℕ) → List Ty → Except PyErr (List Ty)
  | [], l => .ok l
  | (c, i) :: cs, l =>
    if c ∈ ints then dateTys n ints ps cs l
    else
      match ps[i]? with
      | none => .error .indexError
      | some p =>
        if find "SOD".toList (upper p) = none then
          if c < l.length then dateTys n ints ps cs (l.set c (.str n)) else .error .indexError
        else dateTys n ints ps cs l

/-- A row of the loop: a list of cells, or a single text where a dimension was dropped. -/
inductive Line where
  | row (ws : List Name)
  | cell (w : Name)

/-- The rows that the loop sees (`general.py` 196-204).  `genfromtxt` refuses rows of different lengths and drops
dimensions of size one; a single cell has no length. -/
def toLines (rows : List (List Name)) : Except PyErr (List Line) :=
  match rows with
  | [] => .ok []
  | r :: rs =>
    if rs.all (fun r' => r'.length == r.length) then
      match r, rs with
      | [_], [] => .error .typeError
      | r, [] => .ok (r.map .cell)
      | [_], _ => .ok (rows.map fun r => .cell (r.headD []))
      | _, _ => .ok (rows.map .row)
    else .error .valueError

/-- `line[num]` with the fallback for a text (`general.py` 245-248): a text is indexed by letters, a letter has no
`astype`, then the whole text is taken -/
def fetch (l : Line) (num : ℕ) : Except PyErr Name :=
  match l with
  | .row ws =>
    match ws[num]? with
    | none => .error .indexError
    | some w => .ok w
  | .cell w => if num < w.length then .ok w else .error .indexError

/-- `line[dcol]` without a fallback (`general.py` 215) -/
def fetchDate (l : Line) (num : ℕ) : Except PyErr Name :=
  match l with
  | .row ws =>
    match ws[num]? with
    | none => .error .indexError
    | some w => .ok w
  | .cell w => if num < w.length then .error .attributeError else .error .indexError

/-- `convert_time_input` (`general.py` 206-208) -/
structure TimeIn where
  year : Option ℤ
  soy : Option ℤ
  yyddd : Option Name
  sod : Option F
  date : Option Val
  tod : Option Val

/-- An empty `convert_time_input` -/
def TimeIn.empty : TimeIn := ⟨none, none, none, none, none, none⟩

/-- `int(line_val)`.  The columns of years and seconds of the year are never floats. -/
def toInt : Val → Except PyErr ℤ
  | .int z => .ok z
  | .txt s => readInt s
  | _ => .error .typeError

/-- `float(line_val)` -/
def toF (float : Conv) : Val → Except PyErr F
  | .int z => .ok (some z)
  | .num x => .ok x
  | .txt s => toFloat float s
  | .time _ => .error .typeError

/-- The value joined to what is there already (`general.py` 232-236) -/
def join : Option Val → Val → Except PyErr (Option Val)
  | none, v => .ok (some v)
  | some (.txt a), .txt b => .ok (some (.txt (a ++ ' ' :: b)))
  | _, _ => .error .typeError

/-- `time_formats` (`general.py` 125) -/
def timeLetters : List Char := ['H', 'I', 'p', 'M', 'S', 'f', 'z', 'Z']

/-- One part of the time (`general.py` 217-236).  A second year, seconds of the year or seconds of the day cannot be
joined.  A word that is no argument of `convert_time` is a TypeError (at the call); simplifications: it is reported here,
and the word `datetime_fmt` counts as such. -/
def addPart (float : Conv) (p : Name) (v : Val) (t : TimeIn) : Except PyErr TimeIn :=
  match p with
  | '%' :: cs =>
    match cs with
    | [] => .error .indexError
    | c :: _ =>
      if c ∈ timeLetters then (join t.tod v).map fun x => { t with tod := x }
      else (join t.date v).map fun x => { t with date := x }
  | p =>
    let k := lower p
    if k = "year".toList then
      match t.year with
      | none => (toInt v).map fun z => { t with year := some z }
      | some _ => .error .typeError
    else if k = "soy".toList then
      match t.soy with
      | none => (toInt v).map fun z => { t with soy := some z }
      | some _ => .error .typeError
    else if k = "sod".toList then
      match t.sod with
      | none => (toF float v).map fun z => { t with sod := some z }
      | some _ => .error .typeError
    else if k = "yyddd".toList then
      match t.yyddd, v with
      | none, .txt s => .ok { t with yyddd := some s }
      | some a, .txt s => .ok { t with yyddd := some (a ++ ' ' :: s) }
      | none, _ => .error .valueError
      | some _, _ => .error .typeError
    else if k = "date".toList then (join t.date v).map fun x => { t with date := x }
    else if k = "tod".toList then (join t.tod v).map fun x => { t with tod := x }
    else .error .typeError

/-- The loop over the date columns (`general.py` 214-236) -/
def gather (float : Conv) (tys : List Ty) (ps : List Name) (l : Line) : List (ℕ × ℕ) → TimeIn → Except PyErr TimeIn
  | [], t => .ok t
  | (c, i) :: cs, t => do
    let w ← fetchDate l c
    let ty ← match tys[c]? with
      | none => .error .indexError
      | some ty => .ok ty
    let v ← cast float ty w
    match ps[i]? with
    | none => .error .indexError
    | some p => do
      let t ← addPart float p v t
      gather float tys ps l cs t

/-- The text of a date or time of day; a whole number can only be formatted as a text when it stands alone. -/
def asText (alone : Bool) : Option Val → Except PyErr (Option Name)
  | none => .ok none
  | some (.txt s) => .ok (some s)
  | some (.int z) => if alone then .ok (some (decInt z)) else .error .valueError
  | some _ => .error .typeError

/-- The call of `convert_time` (`general.py` 239).  Simplification: NaN seconds of the day are a ValueError whatever the
date is. -/
noncomputable def toTime (t : TimeIn) (fmt : Name) : Except PyErr ℤ :=
  match t.sod with
  | some none => .error .valueError
  | sod => do
    let date ← asText t.tod.isNone t.date
    let tod ← asText false t.tod
    convertTime t.year (t.soy.map fun z => (z : ℝ)) t.yyddd (sod.bind id) date tod fmt

/-- `out`: the lists by name -/
abbrev Table := Name → List Val

/-- `out[name].append(v)` -/
def put (k : Name) (v : Val) (t : Table) : Table := fun c => if c = k then t c ++ [v] else t c

/-- The ordinary columns of one row (`general.py` 244-248) -/
def addRow (float : Conv) (tys : List Ty) (l : Line) : List (Name × ℕ) → Table → Except PyErr Table
  | [], t => .ok t
  | (k, num) :: ks, t => do
    let w ← fetch l num
    let ty ← match tys[num]? with
      | none => .error .indexError
      | some ty => .ok ty
    let v ← cast float ty w
    addRow float tys l ks (put k v t)

/-- All rows (`general.py` 204-248); `dt` is the name and the format of the added column -/
noncomputable def addRows (float : Conv) (tys : List Ty) (ps : List Name) (keys : List Name) (dateCols : List ℕ)
    (dt : Option (Name × Name)) : List Line → Table → Except PyErr Table
  | [], t => .ok t
  | l :: ls, t => do
    let t ← addRow float tys l keys.zipIdx t
    match dt with
    | none => addRows float tys ps keys dateCols dt ls t
    | some (k, fmt) => do
      let i ← gather float tys ps l dateCols.zipIdx TimeIn.empty
      let x ← toTime i fmt
      addRows float tys ps keys dateCols dt ls (put k (.time x) t)

/-- The result: the caller's lists after the call, the keys and the columns. -/
structure Res where
  header : List Name
  intCols : List ℕ
  keys : List Name
  out : Table

/-- The name and format of the added time column (`general.py` 177-184, 192-193) -/
def timeKey (a : Args) (keys : List Name) : Except PyErr (Option (Name × Name)) :=
  match a.fmt with
  | none => .ok none
  | some f => if a.dateCols = [] then .ok none else (freeKey keys dtKeys).map fun k => some (k, f)

/-- `ldtype` (`general.py` 167-191) -/
def colTys (a : Args) (ints : List ℕ) (n : ℕ) : Except PyErr (List Ty) := do
  let l ← setTy .int ints (List.replicate n .float)
  let l ← setTy (.str (strLen a)) a.strCols l
  match a.fmt with
  | none => return l
  | some _ => if a.dateCols = [] then return l else dateTys (strLen a) ints (parts a.fmt) a.dateCols.zipIdx l

/-- `load_ascii_data` (`general.py` 54-259).  At the end the first entry of each list is looked up, which fails for an empty
list (251-253).  Simplification: a column with values of several types, which only repeated names give, is not recast. -/
noncomputable def load (float : Conv) (a : Args) (f : File) : Except PyErr Res :=
  if f.good = false then .ok ⟨a.header, a.intCols, [], fun _ => []⟩
  else do
    let ints ← moreInts a
    let header := moreHeader a f
    if header = [] then return ⟨header, ints, [], fun _ => []⟩
    let keys := keyList a header
    let tys ← colTys a ints keys.length
    let dt ← timeKey a keys
    let lines ← toLines f.rows
    let out ← addRows float tys (parts a.fmt) keys a.dateCols dt lines fun _ => []
    let all := keys ++ (dt.map Prod.fst).toList
    if all.any (fun k => (out k).isEmpty) then .error .indexError else return ⟨header, ints, all, out⟩

end Ocb.Ascii
