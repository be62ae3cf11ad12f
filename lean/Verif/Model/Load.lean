import Verif.Model.Coord

/-!
# Model of `OCBoundary.load` and of the boundary-location cache of `get_aacgm_boundary_lat`
-/

set_option autoImplicit false

namespace Ocb.Coord

/-! ### the cache -/

/-- Boundary latitude for one array entry; a NaN local time gives a NaN latitude. -/
noncomputable def boundaryEntry (B : Rec) : Option ℝ → Except PyErr (Option ℝ)
  | none => .ok none
  | some m => boundaryLat B m

/-- The mutable state that `get_aacgm_boundary_lat` reads and writes.  `heap` holds the numpy arrays by identity:
`np.asarray` does not copy an array, so the caller and the object can share one.  `lats` and `mlts` are the attributes
`aacgm_boundary_lat` and `aacgm_boundary_mlt`, `none` before the attribute exists. -/
structure Store where
  heap : ℕ → List (Option ℝ)
  lats : Option (List (Option (List (Option ℝ))))
  mlts : Option (List (Option ℕ))

/-- The list position a Python index denotes. -/
def pyPos (n : ℕ) (i : ℤ) : Option ℕ :=
  if 0 ≤ i then (if i < n then some i.toNat else none)
  else if 0 ≤ i + n then some (i + n).toNat else none

/-- The loop over the requested records (`_boundary.py` 812-847).  Out-of-range indices raise `IndexError` after the
earlier records were stored.  Left out: the longitudes (see `Model/BoundLon`). -/
noncomputable def cacheLoop (recs : List Rec) (ref : ℕ) (mlt : List (Option ℝ)) (overwrite : Bool) :
    List ℤ → List (Option (List (Option ℝ))) → List (Option ℕ) →
    (List (Option (List (Option ℝ))) × List (Option ℕ) × Option PyErr)
  | [], lats, mlts => (lats, mlts, none)
  | i :: is, lats, mlts =>
    match pyPos lats.length i with
    | none => (lats, mlts, some .indexError)
    | some k =>
      if lats[k]? = some none ∨ overwrite = true then
        match recs[k]? with
        | none => (lats, mlts, some .indexError)
        | some B =>
          match mapE (boundaryEntry B) mlt with
          | .error e => (lats, mlts, some e)
          | .ok v => cacheLoop recs ref mlt overwrite is (lats.set k (some v)) (mlts.set k (some ref))
      else cacheLoop recs ref mlt overwrite is lats mlts

/-- `get_aacgm_boundary_lat` called with the float array `ref` (`_boundary.py` 785-849); `rinds = none` is
`rec_ind=None`.  Lists and scalars are first copied by `np.asarray`, that is, they behave like an array that nobody else
holds. -/
noncomputable def getBoundaryLat (recs : List Rec) (s : Store) (ref : ℕ) (rinds : Option (List ℤ)) (overwrite : Bool) :
    Store × Option PyErr :=
  let mlt := (s.heap ref).map (Option.map wrapMlt)
  let lats := s.lats.getD (List.replicate recs.length none)
  let mlts := s.mlts.getD (List.replicate recs.length none)
  let inds := rinds.getD ((List.range recs.length).map (Int.ofNat ·))
  let r := cacheLoop recs ref mlt overwrite inds lats mlts
  (⟨Function.update s.heap ref mlt, some r.1, some r.2.1⟩, r.2.2)

/-- One step of a session: a call of `get_aacgm_boundary_lat`, or the caller writing to an array it holds. -/
inductive Op where
  | call (ref : ℕ) (rinds : Option (List ℤ)) (overwrite : Bool)
  | write (ref : ℕ) (vals : List (Option ℝ))

noncomputable def Op.run (recs : List Rec) (s : Store) : Op → Store
  | .call ref rinds ow => (getBoundaryLat recs s ref rinds ow).1
  | .write ref vals => { s with heap := Function.update s.heap ref vals }

/-- A session. -/
noncomputable def runOps (recs : List Rec) (s : Store) (ops : List Op) : Store := ops.foldl (Op.run recs) s

/-! ### load -/

/-- The loop over the file rows (`_boundary.py` 387-401): times kept and row indices kept. -/
def loadLoop (stime etime : Option ℤ) : ℕ → List ℤ → List ℤ × List ℕ
  | _, [] => ([], [])
  | i, t :: ts =>
    let r := loadLoop stime etime (i + 1) ts
    if (stime.all fun s => decide (s ≤ t)) && (etime.all fun e => decide (t ≤ e)) then (t :: r.1, i :: r.2) else r

/-- The `rfunc` argument of the constructor. -/
inductive FnArg (F : Type) where
  | dflt
  | one (f : F)
  | array (fs : List F)
  | other

/-- The correction function per record (`_boundary.py` 424-433 and 851-870). -/
def setFns {F : Type} (circular elliptical : F) (instrument : String) (n : ℕ) : FnArg F → Except PyErr (List F)
  | .dflt =>
    if instrument = "image" ∨ instrument = "dmsp-ssj" then .ok (List.replicate n circular)
    else if instrument = "ampere" then .ok (List.replicate n elliptical)
    else .error .valueError
  | .one f => .ok (List.replicate n f)
  | .array fs => if fs.length = n then .ok fs else .error .valueError
  | .other => .error .valueError

/-- What `load` leaves in the object. -/
structure Loaded (Row F : Type) where
  recInd : ℤ
  records : ℕ
  dtime : List ℤ
  rows : List Row
  rfunc : List F

/-- `load` on a file whose rows have been read and whose times have been converted (`_boundary.py` 372-451).  A file with
one row is read by `genfromtxt` as a zero-dimensional array, so `odata.shape[0]` raises `IndexError`.
Simplifications: a row stands for all the columns of the file; a file without time columns (which `load` refuses with a
message) and the keyword arguments of the correction are left out, the latter being handled like `rfunc`. -/
def load {Row F : Type} (circular elliptical : F) (instrument : String) (rfunc : FnArg F) (file : List (ℤ × Row))
    (stime etime : Option ℤ) : Except PyErr (Loaded Row F) :=
  if file.length = 1 then .error .indexError
  else
    let times := file.map (·.1)
    let (dtList, itime) :=
      if stime = none ∧ etime = none then (times, List.range file.length) else loadLoop stime etime 0 times
    match setFns circular elliptical instrument dtList.length rfunc with
    | .error e => .error e
    | .ok fs =>
      match mapE (fun (i : ℕ) => pyIdx (file.map (·.2)) (i : ℤ)) itime with
      | .error e => .error e
      | .ok rows => .ok ⟨-1, dtList.length, dtList, rows, fs⟩

end Ocb.Coord
