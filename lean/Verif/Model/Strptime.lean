import Mathlib.Data.Nat.Find
import Verif.Model.Files

/-!
# Calendar and text conversions of Python's `datetime`, as far as ocbpy uses them

`datetime.strptime` for formats made of the directives Y m d H M S j f, the calendar behind it, and the writing of
numbers.  This is library behaviour (CPython `_strptime.py` and `datetime.py`), not code of the repository, and so part
of what is trusted.  Texts are lists of characters, limited to ASCII.  Other directives are not modelled: `strptime`
returns the error `format` for them.
-/

set_option autoImplicit false

namespace Ocb.Text

open Ocb.Files (Name)

/-! ### numbers -/

/-- The character of a digit. -/
def digitChar (n : ℕ) : Char := Char.ofNat (48 + n)

/-- Decimal digits of a natural number. -/
def dec (n : ℕ) : Name :=
  if h : n < 10 then [digitChar n] else dec (n / 10) ++ [digitChar (n % 10)]
decreasing_by omega

/-- `"{:d}".format(n)`, and `"{:.0f}".format(x)` for a whole number. -/
def decInt (n : ℤ) : Name := if n < 0 then '-' :: dec n.natAbs else dec n.natAbs

/-- Number of a list of digits. -/
def value (p : Name) : ℕ := p.foldl (fun a c => 10 * a + (c.toNat - 48)) 0

/-- A decimal digit. -/
def isDig (c : Char) : Bool := '0' ≤ c && c ≤ '9'

/-- Two digits with leading zeros: `%m`, `%d` of `strftime`. -/
def pad2 (n : ℕ) : Name := [digitChar (n / 10), digitChar (n % 10)]

/-! ### calendar -/

/-- Leap years of the Gregorian calendar. -/
def leap (y : ℕ) : Bool := y % 4 == 0 && (y % 100 != 0 || y % 400 == 0)

/-- Lengths of the months. -/
def months (y : ℕ) : List ℕ := [31, if leap y then 29 else 28, 31, 30, 31, 30, 31, 31, 30, 31, 30, 31]

/-- Days before 1 January of year `y`, counted from the year 1 (`datetime._days_before_year`). -/
def dby (y : ℕ) : ℕ := (y - 1) * 365 + (y - 1) / 4 - (y - 1) / 100 + (y - 1) / 400

/-- Days before the first of month `m` (`datetime._days_before_month`). -/
def dbm (y m : ℕ) : ℕ := ((months y).take (m - 1)).sum

/-- `date(y, m, d).toordinal()`: 1 for 1 January of the year 1. -/
def ordinal (y m d : ℕ) : ℕ := dby y + dbm y m + d

/-- The last ordinal, 31 December 9999. -/
def maxOrd : ℕ := 3652059

/-- The dates the constructor of `date` takes. -/
def Valid (y m d : ℕ) : Prop := 1 ≤ y ∧ y ≤ 9999 ∧ 1 ≤ m ∧ m ≤ 12 ∧ 1 ≤ d ∧ d ≤ (months y).getD (m - 1) 0

instance (y m d : ℕ) : Decidable (Valid y m d) := inferInstanceAs (Decidable (_ ∧ _))

/-- Month and day of a day of the year. -/
def splitDoy : List ℕ → ℕ → ℕ × ℕ
  | [], k => (1, k)
  | l :: ls, k => if k ≤ l then (1, k) else ((splitDoy ls (k - l)).1 + 1, (splitDoy ls (k - l)).2)

/-- Year, month and day of an ordinal (`date.fromordinal`). -/
def civil (n : ℕ) : ℕ × ℕ × ℕ :=
  let y := Nat.findGreatest (fun y => dby y < n) n
  (y, splitDoy (months y) (n - dby y))

/-! ### `strptime` -/

/-- Why `strptime` fails; all are ValueError but `format`, which is outside the model. -/
inductive TErr where
  | mismatch
  | remains (rest : Name)
  | range
  | format
  deriving DecidableEq

/-- A format: literal characters, white space, directives. -/
inductive Tok where
  | lit (c : Char)
  | ws
  | dir (c : Char)
  deriving DecidableEq

/-- White space. -/
def isWs (c : Char) : Bool := c == ' ' || c == '\t' || c == '\n' || c == '\r'

/-- The parts of a format; `none` for directives outside the model and a lone percent sign. -/
def toks : Name → Option (List Tok)
  | [] => some []
  | '%' :: c :: cs =>
    match toks cs with
    | none => none
    | some ts =>
      if c = '%' then some (.lit '%' :: ts)
      else if c ∈ "YmdHMSjf".toList then some (.dir c :: ts)
      else none
  | c :: cs =>
    match toks cs with
    | none => none
    | some ts =>
      if c = '%' then none
      else if isWs c then (match ts with | .ws :: ts => some (.ws :: ts) | ts => some (.ws :: ts))
      else some (.lit c :: ts)

/-- The ways to read a number: lengths in order of preference, and the least and greatest value. -/
def field (lens : List ℕ) (lo hi : ℕ) (s : Name) : List (ℕ × Name) :=
  lens.filterMap fun k =>
    if (s.take k).length = k ∧ (s.take k).all isDig = true ∧ lo ≤ value (s.take k) ∧ value (s.take k) ≤ hi then
      some (value (s.take k), s.drop k)
    else none

/-- A day written with a space in place of the leading zero. -/
def spaceDay : Name → List (ℕ × Name)
  | ' ' :: c :: s => if isDig c = true ∧ c ≠ '0' then [(value [c], s)] else []
  | _ => []

/-- The regular expressions of the directives, as lists of alternatives in order (`_strptime.TimeRE`). -/
def alts (c : Char) (s : Name) : List (ℕ × Name) :=
  if c = 'Y' then field [4] 0 9999 s
  else if c = 'm' then field [2, 1] 1 12 s
  else if c = 'd' then field [2, 1] 1 31 s ++ spaceDay s
  else if c = 'H' then field [2, 1] 0 23 s
  else if c = 'M' then field [2, 1] 0 59 s
  else if c = 'S' then field [2, 1] 0 61 s
  else if c = 'j' then field [3, 2, 1] 1 366 s
  else if c = 'f' then (field [6, 5, 4, 3, 2, 1] 0 999999 s).map fun x => (x.1 * 10 ^ (6 - (s.length - x.2.length)), x.2)
  else []

/-- The fields read, by directive. -/
abbrev Fields := List (Char × ℕ)

/-- The first success. -/
def firstSome {α β : Type} (f : α → Option β) : List α → Option β
  | [] => none
  | a :: as => match f a with
    | some b => some b
    | none => firstSome f as

/-- Matching with backtracking, not anchored at the end.  Case is ignored. -/
def matchToks : List Tok → Name → Option (Fields × Name)
  | [], s => some ([], s)
  | .lit c :: ts, s =>
    match s with
    | [] => none
    | c' :: s => if c.toLower = c'.toLower then matchToks ts s else none
  | .ws :: ts, s => firstSome (fun k => matchToks ts (s.drop (k + 1))) (List.range (s.takeWhile isWs).length).reverse
  | .dir c :: ts, s =>
    firstSome (fun x : ℕ × Name => (matchToks ts x.2).map fun y => ((c, x.1) :: y.1, y.2)) (alts c s)

/-- A field with a default. -/
def getField (f : Fields) (c : Char) (default : ℕ) : ℕ := (f.lookup c).getD default

/-- The ordinal of the fields: a day of the year takes precedence over month and day, and may run into the next year. -/
def dateOf (f : Fields) : Except TErr ℕ :=
  let y := getField f 'Y' 1900
  match f.lookup 'j' with
  | some j =>
    if 1 ≤ y ∧ dby y + j ≤ maxOrd then .ok (dby y + j) else .error .range
  | none =>
    let m := getField f 'm' 1
    let d := getField f 'd' 1
    if Valid y m d then .ok (ordinal y m d) else .error .range

/-- Time in microseconds, counted from the day before 1 January of the year 1. -/
def stamp (ord h m s f : ℕ) : ℤ := (((ord * 24 + h) * 60 + m) * 60 + s) * 1000000 + f

/-- The `datetime` of the fields; a second of 60 or 61 is refused by its constructor. -/
def build (f : Fields) : Except TErr ℤ :=
  match dateOf f with
  | .error e => .error e
  | .ok n =>
    if getField f 'S' 0 ≤ 59 then
      .ok (stamp n (getField f 'H' 0) (getField f 'M' 0) (getField f 'S' 0) (getField f 'f' 0))
    else .error .range

/-- The directives of a format. -/
def dirs : List Tok → List Char
  | [] => []
  | .dir c :: ts => c :: dirs ts
  | _ :: ts => dirs ts

/-- `datetime.strptime(s, fmt)`. -/
def strptime (s fmt : Name) : Except TErr ℤ :=
  match toks fmt with
  | none => .error .format
  | some ts =>
    if (dirs ts).Nodup then
      match matchToks ts s with
      | none => .error .mismatch
      | some (f, []) => build f
      | some (_, c :: rest) => .error (.remains (c :: rest))
    else .error .format

/-- `strftime("%Y-%m-%d")` of midnight of an ordinal of a year with four digits. -/
def writeDate (n : ℕ) : Name :=
  dec (civil n).1 ++ '-' :: (pad2 (civil n).2.1 ++ '-' :: pad2 (civil n).2.2)

end Ocb.Text
