import Verif.Model.TimeText
import Verif.Model.Vort
import Verif.Model.Cycle

/-!
# Model of `ocbpy/instruments/supermag.py`

The reader, and the loop of the driver, which handles all rows of one time together.  A file is the list of its lines.
`float` is the conversion of one text to a number, as in `Verif.Model.Vort`.
-/

set_option linter.unusedVariables false

set_option autoImplicit false

namespace Ocb.Smag

open Ocb.Files (Name contains)
open Ocb.Text (readInt stamp ordinal isWs)
open Ocb.Vort (F Conv toFloat)

/-- `line.split()`; the second argument holds the letters of the word so far, the last one first.  Simplification: the
white space is blank, tab and line ends. -/
def wordsAux : Name → Name → List Name
  | [], w => if w = [] then [] else [w.reverse]
  | c :: cs, w => if isWs c then (if w = [] then wordsAux cs [] else w.reverse :: wordsAux cs []) else wordsAux cs (c :: w)

/-- `line.split()` -/
def words (l : Name) : List Name := wordsAux l []

/-- The values in the lists. -/
inductive Val where
  | int (z : ℤ)
  | num (x : F)
  | txt (n : Name)
  | time (t : ℤ)

/-- `out`, the dictionary of lists (`supermag.py` 228-232). -/
abbrev Table := Name → List Val

/-- The keys of `out` (`supermag.py` 228-232). -/
def outKeys : List Name :=
  ["YEAR".toList, "MONTH".toList, "DAY".toList, "HOUR".toList, "MIN".toList, "SEC".toList, "DATETIME".toList, "NST".toList,
   "SML".toList, "SMU".toList, "STID".toList, "BN".toList, "BE".toList, "BZ".toList, "MLT".toList, "MLAT".toList,
   "DEC".toList, "SZA".toList]

/-- `fill_val` (`supermag.py` 225). -/
def fillVal : ℤ := 999999

/-- `ind` at the start of a block (`supermag.py` 227, 289). -/
def noInd : List (Name × ℤ) := [("SMU".toList, fillVal), ("SML".toList, fillVal)]

/-- `ind[k] = v` -/
def setInd (k : Name) (v : ℤ) : List (Name × ℤ) → List (Name × ℤ)
  | [] => [(k, v)]
  | (a, b) :: r => if a = k then (a, v) :: r else (a, b) :: setInd k v r

/-- The variables set by a date line (`supermag.py` 252-255). -/
structure Cur where
  y : ℕ
  m : ℕ
  d : ℕ
  hh : ℕ
  mi : ℕ
  s : ℕ
  snum : ℤ

/-- The time of a date line. -/
def Cur.time (c : Cur) : ℤ := stamp (ordinal c.y c.m c.d) c.hh c.mi c.s 0

/-- `np.array(line.split(), dtype=int)` -/
def readInts : List Name → Except PyErr (List ℤ)
  | [] => .ok []
  | w :: ws =>
    match readInt w with
    | .error e => .error e
    | .ok v =>
      match readInts ws with
      | .error e => .error e
      | .ok vs => .ok (v :: vs)

/-- `dt.datetime(...)` and `snum` (`supermag.py` 253-255). -/
def mkCur (y m d hh mi s snum : ℤ) : Except PyErr Cur :=
  if 0 ≤ y ∧ 0 ≤ m ∧ 0 ≤ d ∧ 0 ≤ hh ∧ 0 ≤ mi ∧ 0 ≤ s ∧ Ocb.Text.Valid y.toNat m.toNat d.toNat ∧ hh ≤ 23 ∧ mi ≤ 59 ∧ s ≤ 59 then
    .ok ⟨y.toNat, m.toNat, d.toNat, hh.toNat, mi.toNat, s.toNat, snum⟩
  else .error .valueError

/-- A date line (`supermag.py` 249-255). -/
def dateLine (l : Name) : Except PyErr Cur :=
  match readInts (words l) with
  | .error e => .error e
  | .ok (y :: m :: d :: hh :: mi :: s :: rest) => mkCur y m d hh mi s (rest.getLastD s)
  | .ok _ => .error .indexError

/-- `out[k].append(v)` for known keys. -/
def put : List (Name × Val) → Table → Table
  | [], t => t
  | (k, v) :: r, t => put r fun c => if c = k then t c ++ [v] else t c

/-- The time columns (`supermag.py` 264-271). -/
def timeCols (c : Cur) : List (Name × Val) :=
  [("YEAR".toList, .int c.y), ("MONTH".toList, .int c.m), ("DAY".toList, .int c.d), ("HOUR".toList, .int c.hh),
   ("MIN".toList, .int c.mi), ("SEC".toList, .int c.s), ("DATETIME".toList, .time c.time), ("NST".toList, .int c.snum)]

/-- `float(lsplit[i])` -/
def word (float : Conv) (ws : List Name) (i : ℕ) : Except PyErr F :=
  match ws[i]? with
  | none => .error .indexError
  | some w => toFloat float w

/-- The station columns (`supermag.py` 276-283). -/
def stationCols (float : Conv) (ws : List Name) : Except PyErr (List (Name × Val)) :=
  match ws[0]? with
  | none => .error .indexError
  | some id => do
    let bn ← word float ws 1
    let be ← word float ws 2
    let bz ← word float ws 3
    let mlt ← word float ws 4
    let mlat ← word float ws 5
    let dec ← word float ws 6
    let sza ← word float ws 7
    return [("STID".toList, .txt id), ("BN".toList, .num bn), ("BE".toList, .num be), ("BZ".toList, .num bz),
      ("MLT".toList, .num mlt), ("MLAT".toList, .num mlat), ("DEC".toList, .num dec), ("SZA".toList, .num sza)]

/-- The variables of the loop: `cur` is the date line and `n`, `none` where `n < 0`. -/
structure St where
  cur : Option (Cur × ℤ)
  ind : List (Name × ℤ)
  out : Table

/-- A station line (`supermag.py` 263-289). -/
def stationLine (float : Conv) (c : Cur) (n : ℤ) (ws : List Name) (ind : List (Name × ℤ)) (out : Table) : Except PyErr St :=
  if ind.all (fun p => outKeys.contains p.1) then
    match stationCols float ws with
    | .error e => .error e
    | .ok cols =>
      let out := put (timeCols c ++ ind.map (fun p => (p.1, .int p.2)) ++ cols) out
      if n + 1 = c.snum then .ok ⟨none, noInd, out⟩ else .ok ⟨some (c, n + 1), ind, out⟩
  else .error .keyError

/-- One line after the header (`supermag.py` 249-289). -/
def step (float : Conv) (s : St) (l : Name) : Except PyErr St :=
  match s.cur with
  | none =>
    match dateLine l with
    | .error e => .error e
    | .ok c => .ok { s with cur := some (c, 0) }
  | some (c, n) =>
    match words l with
    | [k, v] =>
      match readInt v with
      | .error e => .error e
      | .ok z => .ok { s with ind := setInd k z s.ind }
    | ws => stationLine float c n ws s.ind s.out

/-- All lines after the header. -/
def run (float : Conv) : St → List Name → Except PyErr St
  | s, [] => .ok s
  | s, l :: ls =>
    match step float s l with
    | .error e => .error e
    | .ok s => run float s ls

/-- The line that ends the header. -/
def rule : Name := List.replicate 41 '='

/-- The header with the line that ends it, and the other lines; `none` if there is no such line
(`supermag.py` 242-246). -/
def header : List Name → List Name × Option (List Name)
  | [] => ([], none)
  | l :: ls => if contains rule l then ([l], some ls) else (l :: (header ls).1, (header ls).2)

/-- The columns whose fill values become NaN (`supermag.py` 305). -/
def nanKeys : List Name := ["BE".toList, "BN".toList, "DEC".toList, "SZA".toList, "MLT".toList, "BZ".toList]

/-- `x == fill_val` replaced by NaN (`supermag.py` 306). -/
noncomputable def unfill : Val → Val
  | .num (some x) => if x = fillVal then .num none else .num (some x)
  | v => v

/-- `load_supermag_ascii_data` (`supermag.py` 207-308) of a file that passes `test_file`: the header and the columns, or
`none` for the empty dictionary.  Simplification: a column with values of several types, which only an index named like
another column can give, is not recast. -/
noncomputable def load (float : Conv) (lines : List Name) : Except PyErr (List Name × Option Table) :=
  match header lines with
  | (h, none) => .ok (h, none)
  | (h, some ls) =>
    match run float ⟨none, noInd, fun _ => []⟩ ls with
    | .error e => .error e
    | .ok s => .ok (h, some fun k => if nanKeys.contains k then (s.out k).map unfill else s.out k)

/-! ### the loop of the driver -/

open Ocb.Cycle

/-- `np.where(mdata['DATETIME'] == mdata['DATETIME'][imag])` (`supermag.py` 159). -/
def sameTime (dat : List ℤ) (i : ℕ) : List ℕ := (List.range dat.length).filter fun j => dat[j]? == dat[i]?

/-- `itime[0][-1]` -/
def lastSame (dat : List ℤ) (i : ℕ) : ℕ := (sameTime dat i).getLastD i

theorem sameTime_self {dat : List ℤ} {i : ℕ} (h : i < dat.length) : i ∈ sameTime dat i := by
  unfold sameTime
  simp [h]

theorem sameTime_sorted (dat : List ℤ) (i : ℕ) : (sameTime dat i).Pairwise (· < ·) :=
  List.Pairwise.filter _ List.pairwise_lt_range

theorem le_lastSame {dat : List ℤ} {i j : ℕ} (h : j ∈ sameTime dat i) : j ≤ lastSame dat i := by
  unfold lastSame
  have hs := sameTime_sorted dat i
  generalize sameTime dat i = l at *
  induction l generalizing j with
  | nil => simp at h
  | cons a l ih =>
    rw [List.pairwise_cons] at hs
    cases l with
    | nil =>
      simp only [List.mem_cons, List.not_mem_nil, or_false] at h
      simp [h]
    | cons b l =>
      rw [List.getLastD_cons, List.getLastD_cons]
      rw [List.getLastD_cons] at ih
      rcases List.mem_cons.1 h with rfl | h
      · have h1 := hs.1 b (List.mem_cons_self ..)
        have h2 := ih (List.mem_cons_self ..) hs.2
        omega
      · exact ih h hs.2

/-- The loop of `supermag2ascii_ocb` (`supermag.py` 148-202): the groups of rows written together, and the record used for
each.  When the matcher returns None, the comparison `None < int` raises TypeError. -/
def driveGroups (c : Cycler) (dat : List ℤ) (tol : ℤ) (idat : ℕ) (rec : ℤ) : Except PyErr (List (List ℕ × ℤ)) :=
  if idat < dat.length ∧ rec < c.records then
    match h : matchData c rec dat idat tol with
    | .error e => .error e
    | .ok (none, _) => .error .typeError
    | .ok (some i, r') =>
      if hi : i < dat.length ∧ r' < c.records then
        match driveGroups c dat tol (lastSame dat i + 1) r' with
        | .error e => .error e
        | .ok l => .ok ((sameTime dat i, r') :: l)
      else .ok []
  else .ok []
termination_by dat.length - idat
decreasing_by
  have h1 := matchData_ge _ _ _ _ _ _ _ h
  have h2 := le_lastSame (sameTime_self hi.1)
  omega

end Ocb.Smag
