import Mathlib.Algebra.Order.Archimedean.Real.Basic
import Mathlib.Data.Int.Interval
import Verif.Model.Strptime

/-!
# Model of the text conversions of `ocbpy/ocb_time.py`

`get_datetime_fmt_len`, `year_soy_to_datetime`, `yyddd_to_date` and `convert_time`.  A `datetime` is a number of
microseconds as in `Verif.Model.Strptime`.
-/

set_option autoImplicit false

namespace Ocb.Text

open Ocb.Files (Name)

/-- Every failure of `strptime` inside the model is a ValueError. -/
def orValueError {α : Type} : Except TErr α → Except PyErr α
  | .ok a => .ok a
  | .error _ => .error .valueError

/-- Rounding of `"{:.0f}"`: to the nearest whole number, halves to the even one. -/
noncomputable def roundEven (x : ℝ) : ℤ :=
  if x - ⌊x⌋ < 1 / 2 then ⌊x⌋
  else if 1 / 2 < x - ⌊x⌋ then ⌊x⌋ + 1
  else if ⌊x⌋ % 2 = 0 then ⌊x⌋ else ⌊x⌋ + 1

/-- `year_soy_to_datetime` (`ocb_time.py` 52-88), without rounding of the arithmetic. -/
noncomputable def yearSoy (yyyy : ℤ) (soy : ℝ) : Except PyErr ℤ :=
  let ddd := ⌊soy / 86400⌋
  let hh := ⌊(soy - ddd * 86400) / 3600⌋
  let mm := ⌊(soy - ddd * 86400 - hh * 3600) / 60⌋
  let ss := soy - ddd * 86400 - hh * 3600 - mm * 60
  orValueError (strptime (decInt yyyy ++ '-' :: (decInt (ddd + 1) ++ '-' :: (decInt hh ++ '-' :: (decInt mm ++ '-' ::
    decInt (roundEven ss))))) "%Y-%j-%H-%M-%S".toList)

/-- `int(s)` of a text of digits with an optional sign.  Simplification: no white space, no underscores. -/
def readInt : Name → Except PyErr ℤ
  | '-' :: p => if p ≠ [] ∧ p.all isDig = true then .ok (-(value p : ℤ)) else .error .valueError
  | '+' :: p => if p ≠ [] ∧ p.all isDig = true then .ok (value p) else .error .valueError
  | p => if p ≠ [] ∧ p.all isDig = true then .ok (value p) else .error .valueError

/-- The outcome of `strptime` in `yyddd_to_date` (`ocb_time.py` 108-116) of a text; a failing `int` comes first. -/
def yydddParse (s : Name) : Except PyErr (Except TErr ℤ) :=
  let p := s.takeWhile (· ≠ '.')
  (readInt (p.take (p.length - 3))).map fun y =>
    strptime (decInt (y + 1900) ++ ' ' :: p.drop (p.length - 3)) "%Y %j".toList

/-- `yyddd_to_date` (`ocb_time.py` 91-118) of a text. -/
def yydddDate (s : Name) : Except PyErr ℤ :=
  match yydddParse s with
  | .error e => .error e
  | .ok r => orValueError r

/-- `s.find(sub)` -/
def find (sub : Name) : Name → Option ℕ
  | [] => if sub.isEmpty then some 0 else none
  | c :: cs => if sub.isPrefixOf (c :: cs) then some 0 else (find sub cs).map (· + 1)

/-- `s.replace(old, new)` for a non-empty `old`; the number counts characters of `old` still to be skipped. -/
def replace (old new : Name) : ℕ → Name → Name
  | _, [] => []
  | k + 1, _ :: cs => replace old new k cs
  | 0, c :: cs => if old.isPrefixOf (c :: cs) then new ++ replace old new (old.length - 1) cs
      else c :: replace old new 0 cs

/-- `str.upper`, ASCII letters. -/
def upper (n : Name) : Name := n.map Char.toUpper

/-- The format when the date is given as `yyddd` (`ocb_time.py` 161-169). -/
def dateFmt (fmt : Name) : Name :=
  match find "%Y-%m-%d".toList fmt with
  | some _ => fmt
  | none =>
    match find "YYDDD".toList (upper fmt) with
    | some i => replace ((fmt.drop i).take 5) "%Y-%m-%d".toList 0 fmt
    | none => "%Y-%m-%d ".toList ++ fmt

/-- One pass of the loop that takes the time out of the format (`ocb_time.py` 173-177). -/
def dropTime (fmt timeFmt : Name) : Name :=
  match find timeFmt (upper fmt) with
  | some (i + 1) => fmt.take (i + 1)
  | _ => fmt

/-- The format when there is no time of day (`ocb_time.py` 173-177). -/
def bareFmt (fmt : Name) : Name := dropTime (dropTime fmt " %H:%M:%S".toList) " SOD".toList

/-- The last time a `datetime` can hold. -/
def maxStamp : ℤ := stamp maxOrd 23 59 59 999999

/-- The seconds of the day are added (`ocb_time.py` 183-191), without rounding of the arithmetic; `numpy.modf` takes the
parts of a negative number both negative. -/
noncomputable def addSod (t : ℤ) (sod : ℝ) : Except PyErr ℤ :=
  let sec := if 0 ≤ sod then ⌊sod⌋ else ⌈sod⌉
  let micro := sod - sec
  let t1 := t + sec * 1000000
  if stamp 1 0 0 0 0 ≤ t1 ∧ t1 ≤ maxStamp then
    if 0 < micro then
      if t1 + ⌈micro * 1000000⌉ ≤ maxStamp then .ok (t1 + ⌈micro * 1000000⌉) else .error .overflowError
    else .ok t1
  else .error .overflowError

/-- Length of the last part of `verr.args[0].split(" ")`. -/
def lastPart (rest : Name) : ℕ := (rest.reverse.takeWhile (· ≠ ' ')).length

/-- `str_time[:-k]`: empty for `k = 0`. -/
def cutEnd (s : Name) (k : ℕ) : Name := if k = 0 then [] else s.take (s.length - k)

/-- `strptime`, the seconds of the day, and the second attempt after "unconverted data remains" (`ocb_time.py`
181-200). -/
noncomputable def parseDay (str fmt : Name) (sod : Option ℝ) : Except PyErr ℤ :=
  match strptime str fmt with
  | .ok t =>
    match sod with
    | none => .ok t
    | some x => addSod t x
  | .error (.remains rest) => orValueError (strptime (cutEnd str (lastPart rest)) fmt)
  | .error _ => .error .valueError

/-- Date and time of day are put together (`ocb_time.py` 170-181); a missing date is written "None" when it is alone, and
cannot be formatted before a time of day. -/
noncomputable def joinParse (date tod : Option Name) (fmt : Name) (sod : Option ℝ) : Except PyErr ℤ :=
  match tod with
  | none => parseDay (date.getD "None".toList) (bareFmt fmt) sod
  | some t =>
    match date with
    | none => .error .typeError
    | some d => parseDay (d ++ ' ' :: t) fmt sod

/-- `convert_time` (`ocb_time.py` 121-202).  When `yyddd_to_date` fails with "unconverted data remains", the handler
uses `str_time` before it has a value. -/
noncomputable def convertTime (year : Option ℤ) (soy : Option ℝ) (yyddd : Option Name) (sod : Option ℝ)
    (date tod : Option Name) (fmt : Name) : Except PyErr ℤ :=
  match year, soy with
  | some y, some s => yearSoy y s
  | _, _ =>
    match yyddd with
    | none => joinParse date tod fmt sod
    | some s =>
      match yydddParse s with
      | .error e => .error e
      | .ok (.error (.remains _)) => .error .unboundLocal
      | .ok (.error _) => .error .valueError
      | .ok (.ok t) => joinParse (some (writeDate (t / 86400000000).toNat)) tod (dateFmt fmt) sod

/-- The dictionary `add_len` (`ocb_time.py` 42-43). -/
def addLen : List (Name × ℕ) :=
  [("%a".toList, 1), ("%A".toList, 10), ("%b".toList, 1), ("%B".toList, 8), ("%Y".toList, 2), ("%f".toList, 4),
   ("%z".toList, 3), ("%Z".toList, 1), ("%j".toList, 1), ("%c".toList, 22), ("%x".toList, 8), ("%X".toList, 7)]

/-- `get_datetime_fmt_len` (`ocb_time.py` 17-49). -/
def fmtLen (fmt : Name) : ℕ :=
  addLen.foldl (fun n d => if Ocb.Files.contains d.1 fmt then n + d.2 else n) fmt.length

end Ocb.Text
