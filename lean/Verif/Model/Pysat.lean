import Mathlib.Data.Real.Basic
import Verif.Model.Files
import Verif.Model.Cycle

/-!
# Boundary coordinates for pysat instruments

Model of `add_ocb_to_data` in `ocbpy/instruments/pysat_instruments.py` for data in a pandas table: the choice of the
boundary, the choice of the hemisphere, the checks and bookkeeping of the names, the selection of rows and the loop
that fills the new columns.
-/

set_option autoImplicit false

namespace Ocb.Pysat

open Ocb.Files Ocb.Cycle

/-! ## The kind of boundary -/

/-- `os.path.split(path)[-1]` -/
def baseName (p : Name) : Name := (p.reverse.takeWhile (fun c => c != '/')).reverse

/-- The position of the first occurrence of `sub`, counted from `i` -/
def findAux (sub : Name) : Name → ℕ → ℤ
  | [], i => if sub.isPrefixOf [] then i else -1
  | c :: cs, i => if sub.isPrefixOf (c :: cs) then i else findAux sub cs (i + 1)

/-- `s.find(sub)` -/
def find (s sub : Name) : ℤ := findAux sub s 0

/-- The class of the boundary object that is made. -/
inductive Kind where
  | ocb
  | eab
  | dual
  deriving DecidableEq, Repr

/-- The boundary class and the file name handed to it (`pysat_instruments.py` 190-233); `none` is Python's None.
Simplification: letters are ASCII.  The dual boundary gets no file name. -/
def kind (file : Option Name) : Except PyErr (Kind × Option Name) :=
  let root := match file with
    | none => []
    | some f => lower (baseName f)
  let file := match file with
    | none => none
    | some f => if lower f ∈ ["eab".toList, "ocb".toList, "dual".toList] then some "default".toList else some f
  if find root "ocb".toList > 0 ∧ find root "eab".toList < 0 then .ok (.ocb, file)
  else if find root "ocb".toList < 0 ∧ find root "eab".toList > 0 then .ok (.eab, file)
  else if root = "dual".toList then .ok (.dual, none)
  else .error .valueError

/-! ## The hemisphere -/

/-- `np.sign` of a finite number -/
noncomputable def sgn (x : ℝ) : ℤ := if 0 < x then 1 else if x < 0 then -1 else 0

/-- The values that are not NaN -/
def nums (l : List (Option ℝ)) : List ℝ := l.filterMap id

/-- `np.nanmax` of the latitudes, `none` for NaN (no number at all) -/
noncomputable def nanmax (l : List (Option ℝ)) : Option ℝ := (nums l).max?

/-- `np.nanmin` -/
noncomputable def nanmin (l : List (Option ℝ)) : Option ℝ := (nums l).min?

/-- The hemisphere of the data (`pysat_instruments.py` 178-187; the same statements are in `vort.py` 113-122 and
`supermag.py` 99-108).  Without any number, `np.nanmax` raises ValueError (no values) or gives NaN, which differs from
itself, so that the code raises ValueError.  Simplification: latitudes are finite or NaN. -/
noncomputable def chooseHemi (h : ℤ) (lat : List (Option ℝ)) : Except PyErr ℤ :=
  if h = 0 then
    match nanmax lat, nanmin lat with
    | some hi, some lo =>
      if sgn hi = 0 then .ok (sgn lo) else if sgn hi ≠ sgn lo then .error .valueError else .ok (sgn hi)
    | _, _ => .error .valueError
  else .ok h

/-! ## Names -/

/-- The functions that a vector can be scaled with: `normal_evar`, `normal_curl_evar`, one of the user's, or None. -/
inductive Fn where
  | evar
  | curl
  | user (n : ℕ)
  | none
  deriving DecidableEq, Repr

/-- A value in the dictionaries of `vector_names`. -/
inductive Arg where
  | text (n : Name)
  | fn (f : Fn)
  deriving DecidableEq, Repr

/-- `d[k] = v` for a dictionary kept as a list of pairs in order of insertion -/
def upd {α : Type*} (d : List (Name × α)) (k : Name) (v : α) : List (Name × α) :=
  if d.any (fun e => e.1 == k) then d.map (fun e => if e.1 = k then (k, v) else e) else d ++ [(k, v)]

/-- The arguments that hold names (`pysat_instruments.py` 33-35).  `vects` is the dictionary `vector_names`. -/
structure Names where
  mlat : Name
  mlt : Name
  evars : List Name
  curls : List Name
  vects : List (Name × List (Name × Arg))
  deriving DecidableEq, Repr

/-- `a not in l`: append -/
def addNew (l : List Name) (a : Name) : List Name := if a ∈ l then l else l ++ [a]

/-- Checks on the names (`pysat_instruments.py` 144-160) -/
def checkNames (vars : List Name) (n : Names) : Except PyErr Unit :=
  if n.mlat ∉ vars then .error .valueError
  else if n.mlt ∉ vars then .error .valueError
  else if ¬ n.evars.all (fun e => e ∈ vars ∨ e ∈ n.vects.map Prod.fst) then .error .valueError
  else if ¬ n.curls.all (fun e => e ∈ vars ∨ e ∈ n.vects.map Prod.fst) then .error .valueError
  else .ok ()

/-- The state of the loop over the vectors: the list arguments, the dictionary, the names of the data needed. -/
structure Plan where
  evars : List Name
  curls : List Name
  vects : List (Name × List (Name × Arg))
  need : List Name
  deriving DecidableEq, Repr

/-- The three component keys (`pysat_instruments.py` 267) -/
def comps : List Name := ["vect_n".toList, "vect_e".toList, "vect_z".toList]

/-- The scaling function of one vector, taken from the lists of names (`pysat_instruments.py` 272-281).  The name is
removed from the list that it is found in. -/
def setScale (p : Plan) (e : Name) (entries : List (Name × Arg)) : Except PyErr (Plan × List (Name × Arg)) :=
  if e ∈ p.evars then .ok ({ p with evars := p.evars.erase e }, upd entries "scale_func".toList (.fn .evar))
  else if e ∈ p.curls then .ok ({ p with curls := p.curls.erase e }, upd entries "scale_func".toList (.fn .curl))
  else if entries.any (fun k => k.1 == "scale_func".toList) then .ok (p, entries)
  else .error .valueError

/-- The columns of one vector (`pysat_instruments.py` 287-299); a component that is not a name is not a variable -/
def needOf (vars : List Name) : List (Name × Arg) → List Name → Except PyErr (List Name)
  | [], need => .ok need
  | (k, v) :: es, need =>
    if k ∈ comps then
      match v with
      | .text t => if t ∈ vars then needOf vars es (addNew need t) else .error .valueError
      | .fn _ => .error .valueError
    else needOf vars es need

/-- The loop over the vectors (`pysat_instruments.py` 269-299).  The result holds the lists and the dictionary as the
code leaves them: it changes the caller's objects in place. -/
def vectLoop (vars : List Name) : List (Name × List (Name × Arg)) → Plan → Except PyErr Plan
  | [], p => .ok p
  | (e, entries) :: vs, p => do
    let q ← setScale p e entries
    let need ← needOf vars q.2 p.need
    vectLoop vars vs { q.1 with vects := p.vects ++ [(e, q.2)], need := need }

/-- The names needed before the vectors are looked at (`pysat_instruments.py` 250-258) -/
def firstNeed (vars : List Name) (n : Names) : List Name :=
  ((n.evars ++ n.curls).filter (· ∈ vars)).foldl addNew [n.mlat, n.mlt]

/-- All the bookkeeping of names (`pysat_instruments.py` 144-299) -/
def plan (vars : List Name) (n : Names) : Except PyErr Plan := do
  checkNames vars n
  vectLoop vars n.vects { evars := n.evars, curls := n.curls, vects := [], need := firstNeed vars n }

/-- `a_b` -/
def under (a b : Name) : Name := a ++ '_' :: b

/-- `s.replace(old, new)` for a non-empty `old`; the first argument is fuel for the recursion, enough for the length of
the text. -/
def replaceAux : ℕ → Name → Name → Name → Name
  | 0, _, _, s => s
  | _, _, _, [] => []
  | n + 1, old, new, c :: cs =>
    if old.isPrefixOf (c :: cs) then new ++ replaceAux n old new ((c :: cs).drop old.length)
    else c :: replaceAux n old new cs

/-- `s.replace(old, new)` for a non-empty `old` -/
def replace (old new s : Name) : Name := replaceAux s.length old new s

/-- `bname` (`pysat_instruments.py` 241): `OCBoundary`, `EABoundary` and `DualBoundary` give these names. -/
def bname : Kind → Name
  | .ocb => "ocb".toList
  | .eab => "eab".toList
  | .dual => "dualb".toList

/-- `ocb_vect_attrs` (`pysat_instruments.py` 246-247) -/
def attrs : List Name :=
  ["ocb_n".toList, "ocb_e".toList, "ocb_z".toList, "ocb_mag".toList, "unscaled_r".toList, "scaled_r".toList]

/-- The name under which the results of a vector are written (`pysat_instruments.py` 491 and 514-515) -/
def keySet (b e a : Name) : Name := replace "_ocb_".toList "_".toList (under (under e b) a)

/-- The name of the column made for the results of a vector (`pysat_instruments.py` 417-421) -/
def keyMade (b e a : Name) : Name := if b ≠ "ocb".toList then replace "ocb".toList b (keySet b e a) else keySet b e a

/-- `ocb_names` (`pysat_instruments.py` 242-245, 283-285, 308-312) -/
def ocbNames (b : Name) (n : Names) (p : Plan) : List Name :=
  (p.vects.map (fun v => under v.1 b)).foldl addNew [under n.mlat b, under n.mlt b, under "r_corr".toList b] ++
    p.evars.map (fun e => under e b) ++ p.curls.map (fun e => under e b)

/-- The keys of `ocb_output` (`pysat_instruments.py` 413-424) -/
def outKeys (b : Name) (n : Names) (p : Plan) : List Name :=
  (ocbNames b n p).flatMap fun o =>
    let e := o.take (o.length - (b.length + 1))
    if e ∈ p.vects.map Prod.fst then attrs.map (keyMade b e) else [o]

/-! ## The rows used -/

/-- A number in the table -/
abbrev V := Fl ℝ

/-- `max` of two numbers where NaN is skipped -/
noncomputable def skipMax : V → V → V
  | .nan, b => b
  | a, .nan => a
  | a, b => if Fl.le a b then b else a

/-- `DataFrame.max(axis=1)` of one row: NaN is skipped -/
noncomputable def rowMax (l : List V) : V := l.foldl skipMax .nan

/-- `np.isfinite` -/
def isFin : V → Bool
  | .fin _ => true
  | _ => false

/-- `np.sign(x) == h` for `h` one of -1, 0 and 1 -/
noncomputable def signIs (x : V) (h : ℤ) : Bool :=
  match x with
  | .nan => false
  | .pinf => h == 1
  | .ninf => h == -1
  | .fin x => sgn x == h

/-- The table: the names of the variables, the number of rows, the cells and the times of the rows (in seconds). -/
structure Table where
  vars : List Name
  rows : ℕ
  cell : Name → ℕ → V
  time : ℕ → ℤ

/-- `finite_mask` of one row (`pysat_instruments.py` 322-324) -/
noncomputable def rowUsed (t : Table) (mlat : Name) (need : List Name) (h : ℤ) (i : ℕ) : Bool :=
  signIs (t.cell mlat i) h && isFin (rowMax (need.map fun k => t.cell k i))

/-- `dat_ind[0]` and `uind` (`pysat_instruments.py` 333 and 428) -/
noncomputable def usedRows (t : Table) (mlat : Name) (need : List Name) (h : ℤ) : List ℕ :=
  (List.range t.rows).filter (rowUsed t mlat need h)

/-- The mask of latitudes for data in an xarray set (`pysat_instruments.py` 328-329): `sign(lat) >= hemisphere` -/
noncomputable def xarrayHemi (x : ℝ) (h : ℤ) : Bool := decide (h ≤ sgn x)

/-! ## The loop -/

/-- A value in the dictionary that initialises a `VectorData` object: a number of the row, a text, a function, None. -/
inductive IV where
  | num (v : V)
  | text (n : Name)
  | fn (f : Fn)
  | none

/-- The dictionary that initialises a `VectorData` object. -/
abbrev Init := Name → Option IV

/-- `vector_init[ikey] = …` for one entry (`pysat_instruments.py` 492-505) -/
def setInit (t : Table) (i : ℕ) (d : Init) (k : Name) (a : Arg) : Init := fun k' =>
  if k' = k then
    some (match a with
      | .text v => if v ∈ t.vars then .num (t.cell v i) else .text v
      | .fn f => .fn f)
  else d k'

/-- `vector_default` (`pysat_instruments.py` 478-486) -/
def default (olat omlt rcorr height : V) (loc vec : Name) : Init := fun k =>
  if k = "ocb_lat".toList then some (.num olat)
  else if k = "ocb_mlt".toList then some (.num omlt)
  else if k = "r_corr".toList then some (.num rcorr)
  else if k = "vect_n".toList ∨ k = "vect_e".toList ∨ k = "vect_z".toList then some (.num (.fin 0))
  else if k = "vect_mag".toList then some (.num .nan)
  else if k = "dat_name".toList ∨ k = "dat_units".toList ∨ k = "scale_func".toList then some .none
  else if k = "loc_coord".toList then some (.text loc)
  else if k = "vect_coord".toList then some (.text vec)
  else if k = "height".toList then some (.num height)
  else none

/-- The dictionaries used for the vectors one after the other (`pysat_instruments.py` 487-508): the dictionary is made
once per row, before the loop over the vectors. -/
def inits (t : Table) (i : ℕ) : Init → List (Name × List (Name × Arg)) → List (Name × Init)
  | _, [] => []
  | d, (e, entries) :: vs =>
    let d' := entries.foldl (fun d k => setInit t i d k.1 k.2) d
    (e, d') :: inits t i d' vs

/-- The height argument: a number or a column of the table (`pysat_instruments.py` 315-318) -/
inductive Height where
  | scalar (v : V)
  | column (c : ℕ → V)

/-- `height[iout]` (`pysat_instruments.py` 464): an array without dimensions cannot be indexed by an array -/
def Height.get : Height → ℕ → Except PyErr V
  | .scalar _, _ => .error .indexError
  | .column c, i => .ok (c i)

/-- The parts of the package that the loop calls, as parameters: `normal_coord` of the boundary at a record (latitude,
local time, height to latitude, local time, radius correction), the `VectorData` computation (record, row, latitude,
local time, dictionary to attribute values), the sum of the boundary radius and the correction, and the scaling
functions with the reference radius filled in. -/
structure Lib where
  norm : ℤ → V → V → V → Except PyErr (V × V × V)
  vect : ℤ → ℕ → V → V → Init → Except PyErr (Name → V)
  radius : ℤ → V → V
  scale : Fn → V → V → Except PyErr V

/-- `ocb_output`: a column for each key. -/
abbrev Out := Name → Option (ℕ → V)

/-- `ocb_output[key][i] = v` -/
def put (o : Out) (k : Name) (i : ℕ) (v : V) : Except PyErr Out :=
  match o k with
  | none => .error .keyError
  | some c => .ok fun k' => if k' = k then some fun j => if j = i then v else c j else o k'

/-- `ocb_output[key][i]` -/
def get (o : Out) (k : Name) (i : ℕ) : Except PyErr V :=
  match o k with
  | none => .error .keyError
  | some c => .ok (c i)

/-- A sequence of assignments to one row -/
def putAll (i : ℕ) : List (Name × V) → Out → Except PyErr Out
  | [], o => .ok o
  | (k, v) :: kvs, o => do
    let o' ← put o k i v
    putAll i kvs o'

/-- The results of the vectors (`pysat_instruments.py` 490-516) -/
def putVects (L : Lib) (b : Name) (r : ℤ) (i : ℕ) (lat lt : V) : List (Name × Init) → Out → Except PyErr Out
  | [], o => .ok o
  | (e, d) :: vs, o => do
    let res ← L.vect r i lat lt d
    let o' ← putAll i (attrs.map fun a => (keySet b e a, res a)) o
    putVects L b r i lat lt vs o'

/-- The scaled variables of one kind (`pysat_instruments.py` 526-538); a name that is no variable is a KeyError -/
def putScaled (L : Lib) (t : Table) (b : Name) (f : Fn) (i : ℕ) (rad : V) : List Name → Out → Except PyErr Out
  | [], o => .ok o
  | e :: es, o =>
    if e ∈ t.vars then do
      let v ← L.scale f (t.cell e i) rad
      let o' ← put o (under e b) i v
      putScaled L t b f i rad es o'
    else .error .keyError

/-- The arguments and derived values that stay the same during the loop. -/
structure Env where
  names : Names
  p : Plan
  b : Name
  height : Height
  loc : Name
  vec : Name

/-- One pass of the loop for the row `i` and the record `r` (`pysat_instruments.py` 441-538) -/
def doRow (L : Lib) (t : Table) (E : Env) (o : Out) (i : ℕ) (r : ℤ) : Except PyErr Out := do
  let h ← E.height.get i
  let n ← L.norm r (t.cell E.names.mlat i) (t.cell E.names.mlt i) h
  let o ← putAll i [(under E.names.mlat E.b, n.1), (under E.names.mlt E.b, n.2.1),
    (under "r_corr".toList E.b, n.2.2)] o
  let olat ← get o (under E.names.mlat E.b) i
  let omlt ← get o (under E.names.mlt E.b) i
  let rc ← get o (under "r_corr".toList E.b) i
  let o ← putVects L E.b r i (t.cell E.names.mlat i) (t.cell E.names.mlt i)
    (inits t i (default olat omlt rc h E.loc E.vec) E.p.vects) o
  let rc ← get o (under "r_corr".toList E.b) i
  let o ← putScaled L t E.b .evar i (L.radius r rc) E.p.evars o
  putScaled L t E.b .curl i (L.radius r rc) E.p.curls o

/-- The rows paired with a record, one after the other -/
def doRows (L : Lib) (t : Table) (E : Env) : List (ℕ × ℤ) → Out → Except PyErr Out
  | [], o => .ok o
  | (i, r) :: l, o => do
    let o' ← doRow L t E o i r
    doRows L t E l o'

/-- The empty output: a column of NaN for each key (`pysat_instruments.py` 413-424) -/
def blank (keys : List Name) : Out := fun k => if k ∈ keys then some fun _ => .nan else none

/-- `add_ocb_to_data` for a pandas table and a boundary object that is given, with the record cursor at `rec`
(`pysat_instruments.py` 131-541): the new columns, or `none` when the boundary has no records.
Simplifications: the hemisphere is already one of -1 and 1; all columns have one cell per row; the pairs of rows and
records are found first and the rows are computed afterwards, which changes only which of two exceptions is reported
when both happen; the metadata are left out.  The times of the rows used are handed to the matcher. -/
noncomputable def addOcb (L : Lib) (c : Cycler) (rec : ℤ) (tol : ℤ) (t : Table) (n : Names) (height : Height)
    (loc vec : Name) (h : ℤ) (b : Name) : Except PyErr (Option Out) := do
  let p ← plan t.vars n
  let used := usedRows t n.mlat p.need h
  if c.records = 0 then return none
  let pairs ← drive c (used.map t.time) tol 0 rec
  let o ← doRows L t ⟨n, p, b, height, loc, vec⟩ (pairs.map fun q => (used.getD q.1 0, q.2)) (blank (outKeys b n p))
  return some o

end Ocb.Pysat
