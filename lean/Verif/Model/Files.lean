import Mathlib.Data.Nat.Notation
import Verif.Model.Basic

/-!
# Model of `ocbpy/boundaries/files.py`

The choice of a boundary file from a directory listing.  File names are lists of characters; times are integers;
`parse` is `datetime.strptime(., '%Y%m%d')`, `none` for a ValueError.  Lower case is that of ASCII (simplification).
-/

set_option autoImplicit false

namespace Ocb.Files

/-- A file name or a part of one. -/
abbrev Name := List Char

/-- `str.lower`, ASCII letters. -/
def lower (n : Name) : Name := n.map Char.toLower

/-- `s.split("_")` -/
def split : Name → List Name
  | [] => [[]]
  | c :: cs =>
    if c = '_' then [] :: split cs
    else match split cs with
      | [] => [[c]]
      | p :: ps => (c :: p) :: ps

/-- `s.find(sub) >= 0` -/
def contains (sub : Name) : Name → Bool
  | [] => sub.isEmpty
  | c :: cs => sub.isPrefixOf (c :: cs) || contains sub cs

/-- `s[-3:]` -/
def last3 (n : Name) : Name := n.drop (n.length - 3)

/-- `s[:-4]` -/
def cut4 (n : Name) : Name := n.take (n.length - 4)

/-- What is stored for a file; `none` is a missing key (`files.py` 89-105). -/
structure Info where
  inst : Name
  hem : ℤ
  stime : Option ℤ
  etime : Option ℤ

/-- The calendar as far as it is used: `date y m d` is midnight of a date, `tomorrow` midnight after today. -/
structure Cal where
  date : ℤ → ℤ → ℤ → ℤ
  tomorrow : ℤ
  parse : Name → Option ℤ

/-- The names of the instruments (`files.py` 64-77). -/
def amp : Name := "amp".toList
def si12 : Name := "si12".toList
def si13 : Name := "si13".toList
def wic : Name := "wic".toList
def image : Name := "image".toList
def dmsp : Name := "dmsp-ssj".toList

/-- The dictionaries `stime` and `etime` (`files.py` 64-77). -/
def known (c : Cal) (n : Name) : Option (ℤ × ℤ) :=
  if n = amp then some (c.date 2010 1 1, c.date 2022 1 1)
  else if n = si12 then some (c.date 2000 5 4, c.date 2002 11 1)
  else if n = si13 then some (c.date 2000 5 3, c.date 2002 11 1)
  else if n = wic then some (c.date 2000 5 4, c.date 2002 11 1)
  else if n = image then some (c.date 2000 5 3, c.date 2002 11 1)
  else if n = dmsp then some (c.date 2010 1 1, c.tomorrow)
  else none

/-- The dictionary `hemi` (`files.py` 63). -/
def hemi (n : Name) : Except PyErr ℤ :=
  if n = "north".toList then .ok 1 else if n = "south".toList then .ok (-1) else .error .keyError

/-- The condition on a directory entry (`files.py` 86-88). -/
def relevant (bound : Name) (e : Name × Bool) : Bool :=
  e.2 && !contains ".py".toList e.1 && !contains "README".toList e.1 && decide (lower (last3 e.1) = lower bound)

/-- `file_info[i]` -/
def part (l : List Name) (i : ℕ) : Except PyErr Name :=
  match l[i]? with
  | some p => .ok p
  | none => .error .indexError

/-- The information taken from a file name (`files.py` 89-105).  A ValueError of the first date leaves both keys out,
of the second the end time. -/
def entry (c : Cal) (n : Name) : Except PyErr Info := do
  let info := split (cut4 (lower n))
  let inst ← part info 0
  let h ← part info 1
  let hem ← hemi h
  match known c inst with
  | some (s, e) => return { inst := inst, hem := hem, stime := some s, etime := some e }
  | none =>
    let p2 ← part info 2
    match c.parse p2 with
    | none => return { inst := inst, hem := hem, stime := none, etime := none }
    | some s => do
      let p3 ← part info 3
      match c.parse p3 with
      | none => return { inst := inst, hem := hem, stime := some s, etime := none }
      | some e => return { inst := inst, hem := hem, stime := some s, etime := some e }

/-- `get_boundary_files(bound)` (`files.py` 39-107) on a listing of (name, is a file).  The names of a directory are
distinct, so the dictionary is the list of its items. -/
def boundaryFiles (c : Cal) (bound : Name) (listing : List (Name × Bool)) : Except PyErr (List (Name × Info)) :=
  Ocb.mapE (fun e => (entry c e.1).map fun i => (e.1, i)) (listing.filter (relevant bound))

/-- `long_to_short` and the list of acceptable instruments (`files.py` 155-163). -/
def accept (instrument : Name) : List Name :=
  if instrument = [] then [amp, image, si12, si13, wic, dmsp]
  else if instrument = "ampere".toList then [amp]
  else if instrument = image then [image, si12, si13, wic]
  else if instrument = dmsp then [dmsp]
  else [instrument]

/-- The three tests on a file (`files.py` 168-175); a missing key is a KeyError when it is read. -/
def fits (i : Info) (inst : List Name) (hem : ℤ) (stime etime : Option ℤ) : Except PyErr Bool :=
  if i.hem = hem ∧ i.inst ∈ inst then
    match stime, etime with
    | some s, some e =>
      match i.etime with
      | none => .error .keyError
      | some fe =>
        if s ≤ fe then
          match i.stime with
          | none => .error .keyError
          | some fs => .ok (decide (fs ≤ e))
        else .ok false
    | _, _ => .ok true
  else .ok false

/-- The loop that collects the files that fit (`files.py` 166-175). -/
def goodFiles (inst : List Name) (hem : ℤ) (stime etime : Option ℤ) : List (Name × Info) → Except PyErr (List (Name × Info))
  | [] => .ok []
  | f :: fs => do
    let b ← fits f.2 inst hem stime etime
    let rest ← goodFiles inst hem stime etime fs
    return if b then f :: rest else rest

/-- `short_to_long` with the instrument itself as default (`files.py` 178-179, 189-193). -/
def longName (n : Name) : Name :=
  if n = amp then "ampere".toList
  else if n = si12 ∨ n = si13 ∨ n = wic then image
  else n

/-- `default_inst` (`files.py` 196). -/
def ranking : List Name := [image, amp, si13, si12, wic, dmsp]

/-- `default_inst.index(n)` -/
def rank (n : Name) : Except PyErr ℕ :=
  if n ∈ ranking then .ok (ranking.idxOf n) else .error .valueError

/-- The entry of `ordered_files` with the least key (`files.py` 197-199): of the files with the least rank the last
one, which is the one the dictionary keeps. -/
def leastLast : List (ℕ × (Name × Info)) → Option (ℕ × (Name × Info))
  | [] => none
  | x :: xs =>
    match leastLast xs with
    | none => some x
    | some y => if x.1 < y.1 then some x else some y

/-- The file and the instrument to return (`files.py` 180-206). -/
def choose (instrument : Name) (good : List (Name × Info)) : Except PyErr (Option Name × Name) :=
  match good with
  | [] => .ok (none, instrument)
  | [f] => .ok (some f.1, longName f.2.inst)
  | l => do
    let ranked ← Ocb.mapE (fun f => (rank f.2.inst).map fun k => (k, f)) l
    match leastLast ranked with
    | none => return (none, instrument)
    | some (_, f) => return (some f.1, longName f.2.inst)

/-- `get_default_file(stime, etime, hemisphere, instrument, bound)` (`files.py` 110-206): file name, without the
directory, and instrument. -/
def getDefault (c : Cal) (listing : List (Name × Bool)) (stime etime : Option ℤ) (hem : ℤ) (instrument bound : Name) :
    Except PyErr (Option Name × Name) :=
  ((boundaryFiles c bound listing).bind (goodFiles (accept instrument) hem stime etime)).bind (choose instrument)

end Ocb.Files
