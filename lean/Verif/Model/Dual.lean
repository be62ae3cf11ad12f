import Verif.Model.Load

/-!
# Model of the coordinate methods of `DualBoundary`

`normal_coord`, `revert_coord`, `get_aacgm_boundary_lats` and `calc_r` (`_boundary.py` 1150-1830) for magnetic
coordinates and float arrays of one common shape.  Left out: scalars mixed with arrays (see
`Model/CoordMix`), other shape mismatches, and what is left in the object when an exception is raised.
-/

set_option autoImplicit false

namespace Ocb.Coord

/-- The parts of a `DualBoundary` that the coordinate methods read: the records of the two members, the pair lists, the
pair cursor and the two member cursors. -/
structure DualObj where
  ocbRecs : List Rec
  eabRecs : List Rec
  ocbInd : List ℤ
  eabInd : List ℤ
  recInd : ℤ
  ocbRecInd : ℤ
  eabRecInd : ℤ
  hem : ℝ
  ocbLat : ℝ
  eabLat : ℝ

/-- `self.records`. -/
def DualObj.records (D : DualObj) : ℤ := D.ocbInd.length

/-- The arrays in memory and the boundary-location attributes of the two members. -/
structure DStore where
  heap : ℕ → List (Option ℝ)
  ocbLats : Option (List (Option (List (Option ℝ))))
  ocbMlts : Option (List (Option ℕ))
  eabLats : Option (List (Option (List (Option ℝ))))
  eabMlts : Option (List (Option ℕ))

/-- The stored locations of one member at its cursor (`_boundary.py` 1171-1184). -/
def currentOf (lats : Option (List (Option (List (Option ℝ))))) (mlts : Option (List (Option ℕ))) (i : ℤ) :
    Except PyErr (Option (List (Option ℝ)) × Option ℕ) :=
  match lats, mlts with
  | some l, some m => do
    let a ← pyIdx l i
    let b ← pyIdx m i
    pure (a, b)
  | _, _ => pure (none, none)

/-- `get_aacgm_boundary_lats(mlt, rec_ind=self.rec_ind, overwrite=True, set_lon=False)` (`_boundary.py` 1717-1730):
EAB first, then OCB, at the pair under the cursor. -/
noncomputable def getBoundaryLats (D : DualObj) (s : DStore) (ref : ℕ) : Except PyErr DStore := do
  let ei ← pyIdx D.eabInd D.recInd
  let oi ← pyIdx D.ocbInd D.recInd
  let (s1, e1) := getBoundaryLat D.eabRecs ⟨s.heap, s.eabLats, s.eabMlts⟩ ref (some [ei]) true
  match e1 with
  | some e => .error e
  | none =>
    let (s2, e2) := getBoundaryLat D.ocbRecs ⟨s1.heap, s.ocbLats, s.ocbMlts⟩ ref (some [oi]) true
    match e2 with
    | some e => .error e
    | none => .ok ⟨s2.heap, s2.lats, s2.mlts, s1.lats, s1.mlts⟩

/-- `lst[i] = v` on a Python list held in an attribute. -/
def putSlot {α : Type} (l : Option (List (Option α))) (i : ℤ) (v : Option α) : Except PyErr (Option (List (Option α))) :=
  match l with
  | none => .error .attributeError
  | some l =>
    match pyPos l.length i with
    | none => .error .indexError
    | some k => .ok (some (l.set k v))

/-- The block shared by `normal_coord` (1438-1449, 1480-1487), `revert_coord` (1614-1625, 1652-1663) and `calc_r`
(1793-1804, 1816-1823): remember what is stored, compute the boundary latitudes at the local times in array `ref`, and
put back what was stored.  Returns the OCB and EAB boundary latitudes. -/
noncomputable def boundStep (D : DualObj) (s : DStore) (ref : ℕ) (overwrite : Bool) :
    Except PyErr (List (Option ℝ) × List (Option ℝ) × DStore) := do
  let o0 ← if overwrite then pure (none, none) else currentOf s.ocbLats s.ocbMlts D.ocbRecInd
  let e0 ← if overwrite then pure (none, none) else currentOf s.eabLats s.eabMlts D.eabRecInd
  let overwrite := overwrite || (o0.1.isNone && o0.2.isNone && e0.1.isNone && e0.2.isNone)
  let s1 ← getBoundaryLats D s ref
  let (ob, _) ← currentOf s1.ocbLats s1.ocbMlts D.ocbRecInd
  let (eb, _) ← currentOf s1.eabLats s1.eabMlts D.eabRecInd
  match ob, eb with
  | some ob, some eb =>
    if overwrite then pure (ob, eb, s1)
    else do
      let s2 ← match o0.1 with
        | none => pure s1
        | some v => do
          let l ← putSlot s1.ocbLats D.ocbRecInd (some v)
          let m ← putSlot s1.ocbMlts D.ocbRecInd o0.2
          pure { s1 with ocbLats := l, ocbMlts := m }
      let s3 ← match e0.1 with
        | none => pure s2
        | some v => do
          let l ← putSlot s2.eabLats D.eabRecInd (some v)
          let m ← putSlot s2.eabMlts D.eabRecInd e0.2
          pure { s2 with eabLats := l, eabMlts := m }
      pure (ob, eb, s3)
  | _, _ => .error .typeError

/-- `abs(a) < abs(b)`, false if a NaN is involved. -/
noncomputable def absLt : Option ℝ → Option ℝ → Bool
  | some a, some b => decide (|a| < |b|)
  | _, _ => false

/-- `abs(a) >= abs(b)`, false if a NaN is involved. -/
noncomputable def absGe : Option ℝ → Option ℝ → Bool
  | some a, some b => decide (|b| ≤ |a|)
  | _, _ => false

/-- The record under a member's cursor, `none` when the cursor is out of range (`_boundary.py` 588 and 693). -/
def selRec (recs : List Rec) (i : ℤ) : Option Rec := if 0 ≤ i then recs[i.toNat]? else none

/-- One location inside `normal_coord`, after the boundaries are known (`_boundary.py` 1451-1478).  `bad` says that the
region counts do not add up to the number of locations. -/
noncomputable def dualEntry (D : DualObj) (bad : Bool) (lat ocbLat ob eb : Option ℝ) : Option ℝ :=
  let imid := absLt lat ob && absGe lat eb
  let iout := absLt lat eb
  let iocb := absGe ocbLat (some D.ocbLat)
  match lat, ob, eb with
  | some la, some o, some e =>
    if iout then some (D.eabLat - (e - la) * (D.eabLat / e))
    else if imid then some (D.ocbLat - (o - la) * (D.ocbLat - D.eabLat) / (o - e))
    else if bad && !iocb then none else ocbLat
  | some la, none, some e =>
    if iout then some (D.eabLat - (e - la) * (D.eabLat / e))
    else if bad && !iocb then none else ocbLat
  | _, _, _ => if bad && !iocb then none else ocbLat

/-- The three masks counted in line 1458. -/
noncomputable def regionCount (D : DualObj) (lat ocbLat ob eb : Option ℝ) : ℕ :=
  (if absGe ocbLat (some D.ocbLat) then 1 else 0) + (if absLt lat ob && absGe lat eb then 1 else 0)
    + (if absLt lat eb then 1 else 0)

/-- `DualBoundary.normal_coord` (`_boundary.py` 1369-1492) on an array of (latitude, local time).  `fresh` is the address
of the copy of the local times that the method makes.  Output per location: dual latitude, local time, OCB latitude,
radius correction. -/
noncomputable def dualNormal (D : DualObj) (s : DStore) (fresh : ℕ) (pts : List (Option ℝ × Option ℝ)) (overwrite : Bool) :
    Except PyErr (List (Option ℝ × Option ℝ × Option ℝ × Option ℝ) × DStore) :=
  if D.recInd < 0 ∨ D.records ≤ D.recInd then .ok (pts.map fun _ => (none, none, none, none), s)
  else do
    let (out, lats) ← normalArr (selRec D.ocbRecs D.ocbRecInd) pts
    if out.all fun o => o.1.isNone then pure (out.map fun o => (o.1, o.2.1, o.1, o.2.2), s)
    else
      let s0 := { s with heap := Function.update s.heap fresh (pts.map (·.2)) }
      let (ob, eb, s1) ← boundStep D s0 fresh overwrite
      let rows := (lats.zip out).zip (ob.zip eb)
      let total := (rows.map fun r => regionCount D r.1.1 r.1.2.1 r.2.1 r.2.2).sum
      let bad := decide (total < lats.length)
      pure (rows.map fun r => (dualEntry D bad r.1.1 r.1.2.1 r.2.1 r.2.2, r.1.2.2.1, r.1.2.1, r.1.2.2.2), s1)

/-- One location inside `revert_coord` (`_boundary.py` 1634-1650). -/
noncomputable def dualRevertEntry (D : DualObj) (bl : Option ℝ) (cur : Option ℝ × Option ℝ) (amlt ob eb : Option ℝ) :
    Option ℝ × Option ℝ :=
  match bl with
  | none => cur
  | some b =>
    if |b| < |D.eabLat| then
      (eb.map fun e => e - (D.eabLat - b) * (e / D.eabLat), amlt)
    else if |b| < |D.ocbLat| then
      (ob.bind fun o => eb.map fun e => o - (D.ocbLat - b) * (o - e) / (D.ocbLat - D.eabLat), amlt)
    else cur

/-- `DualBoundary.revert_coord` with `is_ocb=False` (`_boundary.py` 1553-1689); entries (dual latitude, local time,
radius correction), and the array `amlt` of magnetic local times, `none` if not given.
Simplification: `amlt` has the length of the other arrays. -/
noncomputable def dualRevert (D : DualObj) (s : DStore) (pts : List (Option ℝ × Option ℝ × Option ℝ)) (amlt : Option ℕ)
    (overwrite : Bool) : Except PyErr (List (Option ℝ × Option ℝ) × DStore) := do
  let cur ← revertArr (selRec D.ocbRecs D.ocbRecInd) pts
  if pts.all fun p => absGe p.1 (some D.ocbLat) then pure (cur, s)
  else
    match amlt with
    | none => .error .valueError
    | some ref =>
      let (ob, eb, s1) ← boundStep D s ref overwrite
      let rows := (pts.zip cur).zip ((s1.heap ref).zip (ob.zip eb))
      pure (rows.map fun r => dualRevertEntry D r.1.1.1 r.1.2 r.2.1 r.2.2.1 r.2.2.2, s1)

/-- One location inside `calc_r` (`_boundary.py` 1788-1814): scaled and unscaled radius. -/
noncomputable def calcREntry (D : DualObj) (bl unscaled ob eb : Option ℝ) : Option ℝ × Option ℝ :=
  match bl with
  | none => (some (90 - |D.ocbLat|), unscaled)
  | some b =>
    if |b| < |D.eabLat| then (some |D.eabLat|, eb.map fun e => |e|)
    else if |b| < |D.ocbLat| then
      (some |D.ocbLat - D.eabLat|, ob.bind fun o => eb.map fun e => |o - e|)
    else (some (90 - |D.ocbLat|), unscaled)

/-- `calc_r` (`_boundary.py` 1759-1828); entries (dual latitude, radius correction), local times in array `ref`. -/
noncomputable def calcR (D : DualObj) (s : DStore) (pts : List (Option ℝ × Option ℝ)) (ref : ℕ) (overwrite : Bool) :
    Except PyErr (List (Option ℝ × Option ℝ) × DStore) :=
  if D.recInd < 0 ∨ D.records ≤ D.recInd then .ok (pts.map fun _ => (some (90 - |D.ocbLat|), none), s)
  else do
    let oi ← pyIdx D.ocbInd D.recInd
    let B ← pyIdx D.ocbRecs oi
    let (ob, eb, s1) ← boundStep D s ref overwrite
    let rows := pts.zip (ob.zip eb)
    pure (rows.map fun r => calcREntry D r.1.1 (r.1.2.map fun c => B.r + c) r.2.1 r.2.2, s1)

end Ocb.Coord
