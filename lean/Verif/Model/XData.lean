import Verif.Model.Grid

/-!
# `add_ocb_to_data` for data in an xarray set

Model of the loop of `add_ocb_to_data` (`ocbpy/instruments/pysat_instruments.py`) for data with named dimensions.  Numpy
arrays are `Arr` without names of dimensions.  Simplifications: every coordinate is a dimension, every dimension has its
coordinate, and a height that is no variable is a single number.
-/

set_option autoImplicit false

namespace Ocb.XData

open Ocb.Files (Name)
open Ocb.Grid
open Ocb.Cycle
open Ocb.Pysat (V isFin rowMax sgn Lib Fn Names Plan plan under Arg attrs keySet outKeys)

/-- `pysat_inst.data`: the name of the time dimension, the times, the coordinates and the variables in their order, and
the values of both. -/
structure XSet where
  index : Name
  time : List ℤ
  coords : List Name
  vars : List Name
  arr : Name → Arr V

/-- `pysat_inst[d].shape[0]` for a coordinate -/
def XSet.len (S : XSet) (d : Name) : ℕ := (S.arr d).size.headD 0

/-- The dimensions of arrays that are combined: in the order in which they come up.  Library behaviour of xarray. -/
def unify (l : List (List Name)) : List Name := l.foldl (fun acc ds => acc ++ ds.filter (· ∉ acc)) []

/-- The value of an array that is repeated along further dimensions, at a cell of the dimensions `ds` -/
def on {α : Type} (a : Arr α) (ds : List Name) (ix : List ℕ) : α := a.val (a.dims.map fun d => ix.getD (ds.idxOf d) 0)

/-- `np.sign(x) >= h` -/
noncomputable def signGe (x : V) (h : ℤ) : Bool :=
  match x with
  | .nan => false
  | .pinf => decide (h ≤ 1)
  | .ninf => decide (h ≤ -1)
  | .fin x => decide (h ≤ sgn x)

/-- The variables that `to_array` takes: coordinates are not among them (`pysat_instruments.py` 328-331). -/
def dataNames (S : XSet) (need : List Name) : List Name := need.filter (· ∈ S.vars)

/-- The dimensions of `finite_mask` (`pysat_instruments.py` 328-331): `where` appends those of the latitude to each
variable. -/
def maskDims (S : XSet) (need : List Name) (mlat : Name) : List Name :=
  unify ((dataNames S need).map fun k => unify [(S.arr k).dims, (S.arr mlat).dims])

/-- `finite_mask` (`pysat_instruments.py` 328-331): the maximum skips NaN. -/
noncomputable def mask (S : XSet) (need : List Name) (mlat : Name) (h : ℤ) : Arr Bool :=
  let ds := maskDims S need mlat
  { dims := ds, size := ds.map S.len
    val := fun ix => isFin (rowMax ((dataNames S need).map fun k =>
      if signGe (on (S.arr mlat) ds ix) h then on (S.arr k) ds ix else .nan)) }

/-- `dat_coords` (`pysat_instruments.py` 332): the coordinates among the names come first. -/
def datCoords (S : XSet) (need : List Name) : List Name :=
  need.filter (· ∈ S.coords) ++ S.coords.filter fun c => c ∈ need.flatMap (fun k => (S.arr k).dims) ∧ c ∉ need

/-- The place of a cell in the list of all cells, the last index running fastest -/
def ravel : List ℕ → List ℕ → ℕ
  | i :: ix, _ :: sh => i * sh.prod + ravel ix sh
  | _, _ => 0

/-- A numpy array as a list, and a list as an array of a given shape -/
def flat (a : Arr V) : List V := (indices a.size).map a.val

@[inherit_doc flat]
def ofFlat (shape : List ℕ) (l : List V) : Arr V := ⟨[], shape, fun ix => l.getD (ravel ix shape) .nan⟩

/-- A numpy array with one value -/
def full (shape : List ℕ) (v : V) : Arr V := ⟨[], shape, fun _ => v⟩

/-- The height: a number, or the name of a variable (`pysat_instruments.py` 315-319). -/
inductive Height where
  | scalar (v : V)
  | named (k : Name)

/-- `height` as an array; a number has no dimensions -/
def Height.arr (S : XSet) : Height → Arr V
  | .scalar v => full [] v
  | .named k => S.arr k

/-- Latitudes, local times and heights as arrays of one shape, and `ocb_coords` -/
structure Loc where
  lat : Arr V
  lt : Arr V
  height : Arr V
  coords : List Name

/-- The height on the grid of the locations (`pysat_instruments.py` 366-388). -/
def locHeight (S : XSet) (hgt : Height) (lat lt : Arr V) (coords : List Name) : Except PyErr Loc :=
  match hgt with
  | .scalar v => .ok ⟨lat, lt, full lat.size v, coords⟩
  | .named k =>
    let height := S.arr k
    if height.size = lat.size then .ok ⟨lat, lt, height, coords⟩
    else
      let new := S.coords.filter fun c => c ∈ (S.arr k).dims ∧ c ∉ coords
      if new ≠ [] then do
        let p ← gridHeight (flat lat) (flat lt) (flat height) lat.size (new.map S.len)
        let combo := lat.size ++ new.map S.len
        return ⟨ofFlat combo p.1, ofFlat combo p.2.1, ofFlat combo p.2.2, coords ++ new⟩
      else do
        let p ← reshapeTo (flat height) lat.size
        return ⟨lat, lt, ofFlat lat.size p, coords⟩

/-- Latitude, local time and height with one shape (`pysat_instruments.py` 340-391).  Simplification: the latitude has at
least one dimension. -/
def locGrid (S : XSet) (mlat mlt : Name) (hgt : Height) : Except PyErr Loc :=
  let lat := S.arr mlat
  let lt := S.arr mlt
  let height := hgt.arr S
  if lat.size ≠ lt.size ∨ lat.size.headD 0 ≠ S.time.length ∨ (height.size ≠ lat.size ∧ height.size ≠ []) then do
    let own := S.coords.filter fun c => c ∈ lat.dims ∧ c ∉ lt.dims
    let combo := lt.size ++ own.map S.len
    let p ← gridLat (flat lat) (flat lt) lat.size lt.size (own.map S.len)
    locHeight S hgt (ofFlat combo p.1) (ofFlat combo p.2) (S.coords.filter (· ∈ lt.dims) ++ own)
  else .ok ⟨lat, lt, height, [S.index]⟩

/-- Further dimensions of the data (`pysat_instruments.py` 393-410). -/
def widen (S : XSet) (dc : List Name) (l : Loc) : Except PyErr Loc :=
  if l.coords.length < dc.length then do
    let extra := dc.filter (· ∉ l.coords)
    let combo := l.lat.size ++ extra.map S.len
    let lat ← pad l.lat combo
    let lt ← pad l.lt combo
    let height ← pad l.height combo
    return ⟨lat, lt, height, l.coords ++ extra⟩
  else .ok l

/-- `uind` (`pysat_instruments.py` 333 and 428): the first indices of the true cells. -/
def firsts (m : Arr Bool) : List ℕ :=
  (List.range (m.size.headD 0)).filter fun t => (indices m.size).any fun ix => m.val ix && ix.headD 0 == t

/-- The true cells with a given first index (`pysat_instruments.py` 333 and 442-445). -/
def cellsAt (m : Arr Bool) (t : ℕ) : List (List ℕ) := (indices m.size).filter fun ix => m.val ix && ix.headD 0 == t

/-- The cells of an array below an index: too many indices and indices out of range are IndexErrors, with fewer indices
than dimensions a part of the array is meant. -/
def below (sh ix : List ℕ) : Except PyErr (List (List ℕ)) :=
  if ix.length ≤ sh.length ∧ (List.zip ix sh).all (fun p => decide (p.1 < p.2)) then
    .ok ((indices (sh.drop ix.length)).map (ix ++ ·))
  else .error .indexError

/-- `ocb_output`: the values by key -/
abbrev Out := Name → List ℕ → V

/-- `ocb_output[key][iout] = values` -/
def store (o : Out) (k : Name) (l : List (List ℕ × V)) : Out := fun k' ix => if k' = k then (l.lookup ix).getD (o k ix) else o k' ix

/-- What stays the same during the loop -/
structure Env where
  S : XSet
  n : Names
  p : Plan
  b : Name
  h : ℤ
  loc : Loc
  locC : Name
  vecC : Name

/-- `time_mask` (`pysat_instruments.py` 446-456) for the first index `t`. -/
noncomputable def timeMask (S : XSet) (need : List Name) (mlat : Name) (h : ℤ) (t : ℕ) : Arr Bool :=
  let m := mask S need mlat h
  let ds := unify [unify ((dataNames S need).map fun k => (S.arr k).dims), unify [m.dims, [S.index]]]
  { dims := ds, size := ds.map S.len
    val := fun ix => on m ds ix && (S.time[ix.getD (ds.idxOf S.index) 0]? == S.time[t]?) &&
      isFin (rowMax ((dataNames S need).map fun k => on (S.arr k) ds ix)) }

/-- The values of a variable that is scaled (`pysat_instruments.py` 531-535) or belongs to a vector (496-500).  With a
single variable `time_mask` is a set, not an array, and its `values` cannot be used as an index. -/
noncomputable def evarAt (E : Env) (t : ℕ) (ixs : List (List ℕ)) (e : Name) : Except PyErr (List V) :=
  if e ∉ E.S.vars ++ E.S.coords then .error .keyError
  else if 1 < (datCoords E.S E.p.need).length then
    if 1 < E.p.need.length - (E.p.need.filter (· ∈ E.S.coords)).length then do
      let a := E.S.arr e
      let l ← reshape ⟨a.dims, a.size, fun ix => some (a.val ix)⟩ (timeMask E.S E.p.need E.n.mlat E.h t)
      return l.map fun v => v.getD .nan
    else .error .indexError
  else .ok (ixs.map (E.S.arr e).val)

/-- Broadcasting of a list of values to `k` cells -/
def spread (l : List V) (k : ℕ) : Except PyErr (List V) :=
  if l.length = k then .ok l else
    match l with
    | [v] => .ok (List.replicate k v)
    | _ => .error .valueError

/-- The scaled variables of one kind (`pysat_instruments.py` 526-538).  Simplification: if the cells are parts of arrays,
values are only accepted if there is one for each cell. -/
noncomputable def putScaled (L : Lib) (E : Env) (f : Fn) (t : ℕ) (r : ℤ) (ixs cells : List (List ℕ)) :
    List Name → Out → Except PyErr Out
  | [], o => .ok o
  | e :: es, o => do
    let l ← evarAt E t ixs e
    let l ← spread l cells.length
    let res ← mapE (fun c => do
      let v ← L.scale f c.2 (L.radius r (o (under "r_corr".toList E.b) c.1))
      return (c.1, v)) (cells.zip l)
    putScaled L E f t r ixs cells es (store o (under e E.b) res)

/-- The variables that the entries of the vectors name (`pysat_instruments.py` 492-495). -/
def entryVars (S : XSet) (vs : List (Name × List (Name × Arg))) : List Name :=
  vs.flatMap fun v => v.2.filterMap fun k => match k.2 with
    | .text x => if x ∈ S.vars ++ S.coords then some x else none
    | .fn _ => none

/-- The values of the variables of the vectors (`pysat_instruments.py` 490-505).  `VectorData` raises a ValueError unless
there is one for each location. -/
noncomputable def vectLists (E : Env) (t : ℕ) (ixs : List (List ℕ)) (k : ℕ) : Except PyErr (List (Name × List V)) :=
  mapE (fun x => do
    let l ← evarAt E t ixs x
    if l.length = k then return (x, l) else .error .valueError) (entryVars E.S E.p.vects)

/-- The values of the variables, one row for each cell -/
def cellTable (S : XSet) (lists : List (Name × List V)) : Ocb.Pysat.Table :=
  ⟨S.vars ++ S.coords, 0, fun k j => ((lists.lookup k).getD []).getD j .nan, fun _ => 0⟩

/-- The vectors and their attributes -/
def vectPairs (p : Plan) : List (Name × Name) := (p.vects.map Prod.fst).flatMap fun e => attrs.map fun a => (e, a)

/-- The vectors of one time (`pysat_instruments.py` 475-516).  `VectorData` is applied to each location.  The values are
read before the first vector is computed, which changes only which of two exceptions is reported. -/
noncomputable def putVects (L : Lib) (E : Env) (t : ℕ) (r : ℤ) (ixs cells : List (List ℕ)) (o : Out) : Except PyErr Out := do
  let lists ← vectLists E t ixs cells.length
  let res ← mapE (fun c : List ℕ × ℕ => do
    let d := Ocb.Pysat.default (o (under E.n.mlat E.b) c.1) (o (under E.n.mlt E.b) c.1) (o (under "r_corr".toList E.b) c.1)
      (E.loc.height.val c.1) E.locC E.vecC
    let vs ← mapE (fun v : Name × Ocb.Pysat.Init => do
      let f ← L.vect r t (E.loc.lat.val c.1) (E.loc.lt.val c.1) v.2
      return (v.1, f)) (Ocb.Pysat.inits (cellTable E.S lists) c.2 d E.p.vects)
    return (c.1, vs)) cells.zipIdx
  return (vectPairs E.p).foldl (fun o q => store o (keySet E.b q.1 q.2)
    (res.map fun c => (c.1, ((c.2.lookup q.1).map fun f => f q.2).getD .nan))) o

/-- The keys that are written (`pysat_instruments.py` 466-538) -/
def writes (n : Names) (p : Plan) (b : Name) : List Name :=
  [under n.mlat b, under n.mlt b, under "r_corr".toList b] ++ (vectPairs p).map (fun q => keySet b q.1 q.2) ++
    p.evars.map (fun e => under e b) ++ p.curls.map (fun e => under e b)

/-- One pass of the loop for the first index `t` and the record `r` (`pysat_instruments.py` 441-538).  `normal_coord` is
applied to each location.  A height without dimensions cannot be indexed.  A key that was not made is a KeyError. -/
noncomputable def doTime (L : Lib) (E : Env) (o : Out) (t : ℕ) (r : ℤ) : Except PyErr Out := do
  let ixs := (cellsAt (mask E.S E.p.need E.n.mlat E.h) t).map fun ix =>
    if 1 < (datCoords E.S E.p.need).length then ix else ix.take 1
  let parts ← mapE (below E.loc.lat.size) ixs
  let cells := parts.flatten
  if E.loc.height.size = [] then .error .indexError
  else if ∃ k ∈ writes E.n E.p E.b, k ∉ outKeys E.b E.n E.p then .error .keyError
  else do
    let res ← mapE (fun ix => do
      let v ← L.norm r (E.loc.lat.val ix) (E.loc.lt.val ix) (E.loc.height.val ix)
      return (ix, v)) cells
    let o := store o (under E.n.mlat E.b) (res.map fun c => (c.1, c.2.1))
    let o := store o (under E.n.mlt E.b) (res.map fun c => (c.1, c.2.2.1))
    let o := store o (under "r_corr".toList E.b) (res.map fun c => (c.1, c.2.2.2))
    let o ← putVects L E t r ixs cells o
    let o ← putScaled L E .evar t r ixs cells E.p.evars o
    putScaled L E .curl t r ixs cells E.p.curls o

/-- The first indices paired with a record, one after the other -/
noncomputable def doTimes (L : Lib) (E : Env) : List (ℕ × ℤ) → Out → Except PyErr Out
  | [], o => .ok o
  | (t, r) :: l, o => do
    let o' ← doTime L E o t r
    doTimes L E l o'

/-- `pysat_inst.data.assign({oattr: (ocb_coords, values)})` (`pysat_instruments.py` 551-552): one name for each dimension,
and the sizes of the set. -/
def assign (S : XSet) (l : Loc) (o : Out) : Except PyErr (Name → Arr V) :=
  if l.coords.map S.len = l.lat.size then .ok fun k => ⟨l.coords, l.lat.size, o k⟩ else .error .valueError

/-- `pysat_inst.index[uind]` -/
def timesAt (S : XSet) (u : List ℕ) : Except PyErr (List ℤ) :=
  mapE (fun t => match S.time[t]? with
    | some x => .ok x
    | none => .error .indexError) u

/-- `add_ocb_to_data` for an xarray set and a boundary object that is given, with the record cursor at `rec`
(`pysat_instruments.py` 131-552): the new variables by name, or `none` when the boundary has no records.  Simplifications:
as for `Pysat.addOcb`. -/
noncomputable def addX (L : Lib) (c : Cycler) (rec tol : ℤ) (S : XSet) (n : Names) (hgt : Height) (locC vecC : Name)
    (h : ℤ) (b : Name) : Except PyErr (Option (Name → Arr V)) := do
  let p ← plan (S.vars ++ S.coords) n
  if dataNames S p.need = [] then .error .valueError
  else if c.records = 0 then return none
  else do
    let loc ← locGrid S n.mlat n.mlt hgt
    let loc ← widen S (datCoords S p.need) loc
    let m := mask S p.need n.mlat h
    let times ← timesAt S (firsts m)
    let pairs ← drive c times tol 0 rec
    let o ← doTimes L ⟨S, n, p, b, h, loc, locC, vecC⟩ (pairs.map fun q => ((firsts m).getD q.1 0, q.2)) fun _ _ => .nan
    let out ← assign S loc o
    return some out

end Ocb.XData
