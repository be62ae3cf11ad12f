import Verif.Model.Dual

/-!
# The coordinate methods of `DualBoundary` for arrays of several dimensions

The arguments are documented as "array-like".  `normal_coord`, `revert_coord` and `calc_r` find the locations of a region
with `np.where(...)[0]` (`_boundary.py` 1452-1457, 1592, 1635-1637, 1789-1791), that is, they keep the first of the
indices of a location only, and count with `len` (1459, 1593), which is the length of the first dimension.

An array of any number of dimensions is given as the list of its entries in row order with the number `k` of entries
that share the first index ("row" below): `k = 1` for one dimension, the length of a row for two.  Entry `i` is in row
`i / k`.  Magnetic coordinates.  All arguments have the same shape.
-/

set_option autoImplicit false

namespace Ocb.Coord

/-- The first index of entry `i` occurs in `np.where(c)[0]`. -/
def rowHas (k : ℕ) (c : List Bool) (i : ℕ) : Bool := c.zipIdx.any fun p => p.1 && decide (p.2 / k = i / k)

/-- One location in `normal_coord` (`_boundary.py` 1465-1478): whole rows are assigned, first those of `ibad`, then those
of `imid`, then those of `iout`. -/
noncomputable def gridEntry (D : DualObj) (bad mid out ocb : Bool) (lat ocbLat ob eb : Option ℝ) : Option ℝ :=
  if out then lat.bind fun la => eb.map fun e => D.eabLat - (e - la) * (D.eabLat / e)
  else if mid then
    lat.bind fun la => ob.bind fun o => eb.map fun e => D.ocbLat - (o - la) * (D.ocbLat - D.eabLat) / (o - e)
  else if bad && !ocb then none else ocbLat

/-- A location with its latitude, OCB coordinates and boundary latitudes. -/
abbrev GRow := (Option ℝ × Option ℝ × Option ℝ × Option ℝ) × Option ℝ × Option ℝ

/-- `imid`, `iout`, `iocb` before `[0]` is taken (`_boundary.py` 1452-1457). -/
noncomputable def GRow.mid (r : GRow) : Bool := absLt r.1.1 r.2.1 && absGe r.1.1 r.2.2
noncomputable def GRow.out (r : GRow) : Bool := absLt r.1.1 r.2.2
noncomputable def GRow.ocb (D : DualObj) (r : GRow) : Bool := absGe r.1.2.1 (some D.ocbLat)

/-- Lines 1451-1481 of `normal_coord` for all locations. -/
noncomputable def gridRows (k : ℕ) (D : DualObj) (rows : List GRow) : List (Option ℝ × Option ℝ × Option ℝ × Option ℝ) :=
  let bad := decide ((rows.map fun r => regionCount D r.1.1 r.1.2.1 r.2.1 r.2.2).sum < rows.length / k)
  rows.zipIdx.map fun p =>
    (gridEntry D bad (rowHas k (rows.map GRow.mid) p.2) (rowHas k (rows.map GRow.out) p.2)
      (rowHas k (rows.map (GRow.ocb D)) p.2) p.1.1.1 p.1.1.2.1 p.1.2.1 p.1.2.2, p.1.1.2.2.1, p.1.1.2.1, p.1.1.2.2.2)

/-- `DualBoundary.normal_coord` (`_boundary.py` 1369-1492); see `dualNormal` for the arguments. -/
noncomputable def dualNormalGrid (k : ℕ) (D : DualObj) (s : DStore) (fresh : ℕ) (pts : List (Option ℝ × Option ℝ))
    (overwrite : Bool) : Except PyErr (List (Option ℝ × Option ℝ × Option ℝ × Option ℝ) × DStore) :=
  if D.recInd < 0 ∨ D.records ≤ D.recInd then .ok (pts.map fun _ => (none, none, none, none), s)
  else do
    let (out, lats) ← normalArr (selRec D.ocbRecs D.ocbRecInd) pts
    if out.all fun o => o.1.isNone then pure (out.map fun o => (o.1, o.2.1, o.1, o.2.2), s)
    else
      let s0 := { s with heap := Function.update s.heap fresh (pts.map (·.2)) }
      let (ob, eb, s1) ← boundStep D s0 fresh overwrite
      pure (gridRows k D ((lats.zip out).zip (ob.zip eb)), s1)

/-- `imid` and `iout` of `revert_coord` and `calc_r` (`_boundary.py` 1635-1637, 1789-1791). -/
noncomputable def midLat (D : DualObj) (b : Option ℝ) : Bool := absLt b (some D.ocbLat) && absGe b (some D.eabLat)
noncomputable def outLat (D : DualObj) (b : Option ℝ) : Bool := absLt b (some D.eabLat)

/-- One location in `revert_coord` (`_boundary.py` 1639-1650). -/
noncomputable def gridRevertEntry (D : DualObj) (mid out : Bool) (bl : Option ℝ) (cur : Option ℝ × Option ℝ)
    (amlt ob eb : Option ℝ) : Option ℝ × Option ℝ :=
  if out then (bl.bind fun b => eb.map fun e => e - (D.eabLat - b) * (e / D.eabLat), amlt)
  else if mid then
    (bl.bind fun b => ob.bind fun o => eb.map fun e => o - (D.ocbLat - b) * (o - e) / (D.ocbLat - D.eabLat), amlt)
  else cur

/-- `DualBoundary.revert_coord` with `is_ocb=False` (`_boundary.py` 1585-1689); see `dualRevert` for the arguments.  All
locations count as inside the OCB if their number is that of the rows (1593). -/
noncomputable def dualRevertGrid (k : ℕ) (D : DualObj) (s : DStore) (pts : List (Option ℝ × Option ℝ × Option ℝ))
    (amlt : Option ℕ) (overwrite : Bool) : Except PyErr (List (Option ℝ × Option ℝ) × DStore) := do
  let cur ← revertArr (selRec D.ocbRecs D.ocbRecInd) pts
  if pts.length / k = (pts.filter fun p => absGe p.1 (some D.ocbLat)).length then pure (cur, s)
  else
    match amlt with
    | none => .error .valueError
    | some ref =>
      let (ob, eb, s1) ← boundStep D s ref overwrite
      let rows := (pts.zip cur).zip ((s1.heap ref).zip (ob.zip eb))
      pure (rows.zipIdx.map fun p => gridRevertEntry D (rowHas k (pts.map fun q => midLat D q.1) p.2)
        (rowHas k (pts.map fun q => outLat D q.1) p.2) p.1.1.1.1 p.1.1.2 p.1.2.1 p.1.2.2.1 p.1.2.2.2, s1)

/-- One location in `calc_r` (`_boundary.py` 1806-1814). -/
noncomputable def gridREntry (D : DualObj) (mid out : Bool) (unscaled ob eb : Option ℝ) : Option ℝ × Option ℝ :=
  if out then (some |D.eabLat|, eb.map fun e => |e|)
  else if mid then (some |D.ocbLat - D.eabLat|, ob.bind fun o => eb.map fun e => |o - e|)
  else (some (90 - |D.ocbLat|), unscaled)

/-- `calc_r` (`_boundary.py` 1759-1828); see `calcR` for the arguments. -/
noncomputable def calcRGrid (k : ℕ) (D : DualObj) (s : DStore) (pts : List (Option ℝ × Option ℝ)) (ref : ℕ)
    (overwrite : Bool) : Except PyErr (List (Option ℝ × Option ℝ) × DStore) :=
  if D.recInd < 0 ∨ D.records ≤ D.recInd then .ok (pts.map fun _ => (some (90 - |D.ocbLat|), none), s)
  else do
    let oi ← pyIdx D.ocbInd D.recInd
    let B ← pyIdx D.ocbRecs oi
    let (ob, eb, s1) ← boundStep D s ref overwrite
    let rows := pts.zip (ob.zip eb)
    pure (rows.zipIdx.map fun p => gridREntry D (rowHas k (pts.map fun q => midLat D q.1) p.2)
      (rowHas k (pts.map fun q => outLat D q.1) p.2) (p.1.1.2.map fun c => B.r + c) p.1.2.1 p.1.2.2, s1)

end Ocb.Coord
