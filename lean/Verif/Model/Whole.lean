import Verif.Model.Dual
import Verif.Model.Vectors

/-!
# Model of calls with whole numbers

Python integers, and lists and arrays of them, become integer arrays with `np.asarray`.  numpy does not add or subtract
a float in place in such an array (`UFuncTypeError`, a `TypeError`; this is decided from the two types, even if the
selection is empty) and does not store NaN in it (`ValueError`).  The functions of the other files are for float arrays;
here are those that work in place, for arrays of either type.

Simplification: integers have no limits.
-/

set_option autoImplicit false

namespace Ocb.Whole

open Ocb.Time (isHigh isLow highPass lowPass)
open Ocb.Coord

/-- A number given by the caller. -/
inductive Scal where
  | int (z : ℤ)
  | float (x : ℝ)

/-- The number. -/
def Scal.val : Scal → ℝ
  | .int z => z
  | .float x => x

/-- An array of one of the two types. -/
inductive Nums (α : Type) where
  | ints (l : List ℤ)
  | floats (l : List α)

/-- The entries as floats. -/
def Nums.vals {α : Type} (c : ℤ → α) : Nums α → List α
  | .ints l => l.map c
  | .floats l => l

/-- Is this an integer array? -/
def Nums.isInt {α : Type} : Nums α → Bool
  | .ints _ => true
  | .floats _ => false

/-- An integer as an entry of a float array that may hold NaN. -/
def num (z : ℤ) : Option ℝ := some (z : ℝ)

/-! ### `fix_range` -/

/-- `val_range` if it is an integer: given as one, or the difference of two integers (`ocb_time.py` 428-429). -/
def intPeriod (mn mx : Scal) : Option Scal → Option ℤ
  | some (.int r) => some r
  | some (.float _) => none
  | none =>
    match mn, mx with
    | .int a, .int b => some (b - a)
    | _, _ => none

/-- `fix_range` (`ocb_time.py` 399-452) for an array of either type; single values are arrays of one entry.  The relation
holds between a call and its outcome. -/
def FixNums (xs : Nums (Fl ℝ)) (mn mx : Scal) (vr : Option Scal) (out : Except PyErr (Nums (Fl ℝ))) : Prop :=
  if mx.val ≤ mn.val then out = .error .valueError
  else
    let r := (vr.map Scal.val).getD (mx.val - mn.val)
    if r ≤ 0 then out = .error .valueError
    else
      match xs with
      | .floats l => ∃ ys zs, While (fun s => s.any (isHigh mx.val)) (highPass mx.val r) l ys ∧
          While (fun s => s.any (isLow mn.val)) (lowPass mn.val r) ys zs ∧ out = .ok (.floats zs)
      | .ints l =>
        match intPeriod mn mx vr with
        | some p => ∃ ys zs,
            While (fun s : List ℤ => s.any fun z => decide (mx.val ≤ z))
              (List.map fun z => if mx.val ≤ z then z - p else z) l ys ∧
            While (fun s : List ℤ => s.any fun z => decide ((z : ℝ) < mn.val))
              (List.map fun z => if (z : ℝ) < mn.val then z + p else z) ys zs ∧
            out = .ok (.ints zs)
        | none =>
          if l.any fun z => decide (mx.val ≤ z) then out = .error .typeError
          else if l.any fun z => decide ((z : ℝ) < mn.val) then out = .error .typeError
          else out = .ok (.ints l)

/-! ### Boundaries -/

/-- `get_aacgm_boundary_lat` (`_boundary.py` 786-849) called with the array `ref`, of integers if `int` says so: line 787
adds 24.0 in place. -/
noncomputable def boundaryNums (recs : List Rec) (s : Store) (ref : ℕ) (int : Bool) (rinds : Option (List ℤ))
    (overwrite : Bool) : Store × Option PyErr :=
  if int then (s, some .typeError) else getBoundaryLat recs s ref rinds overwrite

/-- `OCBoundary.normal_coord` in magnetic coordinates (`_boundary.py` 577-636) for arrays of equal shape: latitudes of
the wrong hemisphere are replaced by NaN in place (line 609).  The result is that of `normalArr`. -/
noncomputable def normalNums (rec : Option Rec) (lat lt : Nums (Option ℝ)) :
    Except PyErr (List (Option ℝ × Option ℝ × Option ℝ) × List (Option ℝ)) :=
  let pts := (lat.vals num).zip (lt.vals num)
  match rec with
  | none => normalArr none pts
  | some B =>
    let lats := pts.map (·.1)
    if lat.isInt && lats.any (wrongHem B.hem) && !lats.all (wrongHem B.hem) then .error .valueError
    else normalArr (some B) pts

/-- `DualBoundary.get_aacgm_boundary_lats` (`_boundary.py` 1717-1730) at the pair under the cursor: the EAB is first. -/
noncomputable def boundaryLatsNums (D : DualObj) (s : DStore) (ref : ℕ) (int : Bool) : Except PyErr DStore := do
  let ei ← pyIdx D.eabInd D.recInd
  let oi ← pyIdx D.ocbInd D.recInd
  let (s1, e1) := boundaryNums D.eabRecs ⟨s.heap, s.eabLats, s.eabMlts⟩ ref int (some [ei]) true
  match e1 with
  | some e => .error e
  | none =>
    let (s2, e2) := boundaryNums D.ocbRecs ⟨s1.heap, s.ocbLats, s.ocbMlts⟩ ref int (some [oi]) true
    match e2 with
    | some e => .error e
    | none => .ok ⟨s2.heap, s2.lats, s2.mlts, s1.lats, s1.mlts⟩

/-- The part of `boundStep` up to the call of `get_aacgm_boundary_lats` (`_boundary.py` 1438-1447): IndexError if a list of
stored locations is too short, otherwise what the call raises; the rest is as for floats. -/
noncomputable def boundStepNums (D : DualObj) (s : DStore) (ref : ℕ) (int overwrite : Bool) :
    Except PyErr (List (Option ℝ) × List (Option ℝ) × DStore) := do
  let _ ← if overwrite then pure (none, none) else currentOf s.ocbLats s.ocbMlts D.ocbRecInd
  let _ ← if overwrite then pure (none, none) else currentOf s.eabLats s.eabMlts D.eabRecInd
  let _ ← boundaryLatsNums D s ref int
  boundStep D s ref overwrite

/-- `DualBoundary.normal_coord` (`_boundary.py` 1368-1492) for magnetic coordinates and arrays of equal shape, or two
single values, which become arrays of one entry of their own type (lines 1375-1378).  The copies of lines 1424-1425 have
the types of the inputs. -/
noncomputable def dualNums (D : DualObj) (s : DStore) (fresh : ℕ) (lat lt : Nums (Option ℝ)) (overwrite : Bool) :
    Except PyErr (List (Option ℝ × Option ℝ × Option ℝ × Option ℝ) × DStore) :=
  let pts := (lat.vals num).zip (lt.vals num)
  if D.recInd < 0 ∨ D.records ≤ D.recInd then .ok (pts.map fun _ => (none, none, none, none), s)
  else do
    let (out, lats) ← normalNums (selRec D.ocbRecs D.ocbRecInd) lat lt
    if out.all fun o => o.1.isNone then pure (out.map fun o => (o.1, o.2.1, o.1, o.2.2), s)
    else
      let s0 := { s with heap := Function.update s.heap fresh (pts.map (·.2)) }
      let (ob, eb, s1) ← boundStepNums D s0 fresh lt.isInt overwrite
      let rows := (lats.zip out).zip (ob.zip eb)
      let total := (rows.map fun r => regionCount D r.1.1 r.1.2.1 r.2.1 r.2.2).sum
      let bad := decide (total < lats.length)
      pure (rows.map fun r => (dualEntry D bad r.1.1 r.1.2.1 r.2.1 r.2.2, r.1.2.2.1, r.1.2.1, r.1.2.2.2), s1)

/-! ### Quadrants of the pole -/

/-- `define_pole_quadrants` (`vectors.py` 145-228) for arrays of one length: entries local time of the data, local time of
the pole, angle.  The differences of two integer arrays are an integer array, which the loops change in place (lines 186
and 195).  Single values are rebound (lines 183 and 192) and are not treated here, see `poleQuad`. -/
noncomputable def poleQuadNums (dataLt poleLt : Nums (Option ℝ)) (ang : List (Option ℝ)) : Except PyErr (List ℤ) :=
  let floats := (((dataLt.vals num).zip (poleLt.vals num)).zip ang).map fun p => Vec.poleQuad p.1.1 p.1.2 p.2
  match dataLt, poleLt with
  | .ints d, .ints p =>
    let dif := List.zipWith (fun a b => b - a) d p
    if dif.any fun z => decide (z < 0) then .error .typeError
    else if dif.any fun z => decide (24 ≤ |z|) then .error .typeError
    else .ok floats
  | _, _ => .ok floats

end Ocb.Whole
