import Verif.Model.Pairs

/-!
# The dictionaries of selection criteria in `set_good_ind` (`ocbpy/_boundary.py` 1211-1310)

`Pairs` models `set_good_ind` with the criteria as values.  The code enters the two limits of the figure of merit into the
dictionaries of the caller, which may be one and the same object.
-/

set_option autoImplicit false

namespace Ocb.Cycle

/-- A value in a dictionary of selection criteria: a tuple (comparison, bound) or a limit of the figure of merit. -/
inductive DVal where
  | crit (op : String) (bound : Fl ℚ)
  | limit (x : Option (Fl ℚ))
  deriving DecidableEq

/-- A `dict`: its entries in order of insertion, with different keys. -/
abbrev Dict := List (String × DVal)

/-- `d[k] = v`. -/
def Dict.set (d : Dict) (k : String) (v : DVal) : Dict :=
  if d.any (·.1 == k) then d.map fun p => if p.1 == k then (k, v) else p else d ++ [(k, v)]

/-- `d.get(k)`. -/
def Dict.get (d : Dict) (k : String) : Option DVal := (d.find? (·.1 == k)).map (·.2)

/-- The argument `min_merit` or `max_merit` in a call `f(**d)`; a tuple there raises a `TypeError` when it is compared.
Simplification: it is raised at once. -/
def Dict.limit (d : Dict) (k : String) : Except PyErr (Option (Fl ℚ)) :=
  match d.get k with
  | none => .ok none
  | some (.limit x) => .ok x
  | some (.crit _ _) => .error .typeError

/-- The names of the arguments that are no criteria. -/
def isLimit (k : String) : Bool := k == "min_merit" || k == "max_merit"

/-- The arguments `**kwargs` in a call `f(min_merit=None, max_merit=None, **kwargs)` with `**d`
(`_boundary.py` 453-534, `cycle_boundary.py` 18, 68).  A value that is no tuple cannot be indexed (`TypeError`);
simplification: raised at once. -/
def Dict.crits (d : Dict) : Except PyErr (List Criterion) :=
  mapE (fun p => match p.2 with
    | .crit op b => .ok ⟨p.1, op, b⟩
    | .limit _ => .error .typeError) (d.filter fun p => !isLimit p.1)

/-- What a call with `**d` receives. -/
def Dict.unpack (d : Dict) : Except PyErr Sel := do
  let mn ← d.limit "min_merit"
  let mx ← d.limit "max_merit"
  let kw ← d.crits
  pure ⟨mn, mx, kw⟩

/-- `d['min_merit'] = mn; d['max_merit'] = mx` (`_boundary.py` 1264-1265, 1272-1273). -/
def Dict.enter (d : Dict) (mn mx : Option (Fl ℚ)) : Dict := (d.set "min_merit" (.limit mn)).set "max_merit" (.limit mx)

/-- The dictionaries of the caller. -/
abbrev Dicts := ℕ → Dict

/-- A dictionary argument: an object of the caller or `None`, for which a new one is made (`_boundary.py` 1262-1263,
1270-1271); with the limits entered.  Result: its contents and the caller's objects afterwards. -/
def enterArg (h : Dicts) (a : Option ℕ) (mn mx : Option (Fl ℚ)) : Dict × Dicts :=
  match a with
  | none => (Dict.enter [] mn mx, h)
  | some i => (Dict.enter (h i) mn mx, Function.update h i (Dict.enter (h i) mn mx))

/-- The pairing with the good OCB records known (`_boundary.py` 1275-1308). -/
def pairWith (ocb eab : Bnd) (good : List ℤ) (se : Sel) (maxDelta : ℤ) : Except PyErr Pairs :=
  match mapE (pyIdx ocb.dtime) good with
  | .error e => .error e
  | .ok times =>
    match pairLoop eab se.min se.max se.kw times maxDelta 0 (-1) with
    | .error e => .error e
    | .ok l =>
      match mapE (fun p => pyIdx good (p.1 : ℤ)) l, mapE (fun p => pyIdx times (p.1 : ℤ)) l with
      | .ok oi, .ok ts => .ok { dtime := ts, ocbInd := oi, eabInd := l.map (·.2) }
      | .error e, _ => .error e
      | .ok _, .error e => .error e

/-- `set_good_ind` (`_boundary.py` 1211-1310) with dictionary objects.  Result: the pairs and the caller's dictionaries
afterwards. -/
def setGoodDict (ocb eab : Bnd) (h : Dicts) (oArg eArg : Option ℕ) (oMin oMax eMin eMax : Option (Fl ℚ)) (maxDelta : ℤ) :
    Except PyErr Pairs × Dicts :=
  let (od, h1) := enterArg h oArg oMin oMax
  match od.unpack with
  | .error e => (.error e, h1)
  | .ok so =>
    match retrieveAll ocb so.min so.max so.kw 0 with
    | .error e => (.error e, h1)
    | .ok (good, _) =>
      let (ed, h2) := enterArg h1 eArg eMin eMax
      match ed.unpack with
      | .error e => (.error e, h2)
      | .ok se => (pairWith ocb eab good se maxDelta, h2)

/-- `get_next_good_ocb_ind(**d)` (`_boundary.py` 453-534) with a dictionary of the caller. -/
def getNextDict (b : Bnd) (h : Dicts) (i : ℕ) (rec : ℤ) : Except PyErr ℤ := do
  let s ← (h i).unpack
  getNext b s.min s.max s.kw rec

end Ocb.Cycle
