import Verif.Model.SetDual
import Verif.Model.Mixed

/-!
# The coordinate methods called with single values and arrays mixed (`ocbpy/_boundary.py` 520-740, 1312-1828)

Every argument is documented as "float or array-like".  Here an argument is a single value or an array of one dimension;
the coordinates are magnetic, so the heights only matter by their shape.  Left out: arrays of two and more dimensions as
arguments, and what is stored in the object after a call (see `Dual`).
-/

set_option autoImplicit false

namespace Ocb.Scale

open Ocb.Time Ocb.Coord Ocb.Vec

/-- `OCBoundary.normal_coord` (`_boundary.py` 577-636); `height` is the shape of the heights.  The shape of the NaN results is
the largest of the shapes of the arguments, that of the others is the one numpy gives them; the radius correction is
computed from the local times alone (lines 625-626). -/
noncomputable def normalMix (rec : Option Rec) (lat lt : Arr F) (height : Shape) :
    Except PyErr (Arr F × Arr F × Arr F) :=
  let nan := Arr.full (maxShape [lat.shape, lt.shape, height]) (none : F)
  match rec with
  | none => .ok (nan, nan, nan)
  | some B =>
    if lat.entries.any (wrongHem B.hem) && lat.entries.all (wrongHem B.hem) then .ok (nan, nan, nan)
    else do
      let pts ← (lat.map fun l => if wrongHem B.hem l then none else l).zip lt
      let out ← pts.mapE fun p => normalEntry B p.1 p.2
      pure (out.map (·.1), out.map (·.2.1), lt.map fun m => m.map B.rf)

/-- `OCBoundary.revert_coord` (`_boundary.py` 679-740). -/
noncomputable def revertMix (rec : Option Rec) (lat lt rc : Arr F) (height : Shape) : Except PyErr (Arr F × Arr F) :=
  let nan := Arr.full (maxShape [lat.shape, lt.shape, rc.shape, height]) (none : F)
  match rec with
  | none => .ok (nan, nan)
  | some B =>
    if lat.entries.all (wrongHem B.hem) then .ok (nan, nan)
    else do
      let p ← lat.zip lt
      let q ← p.zip rc
      let out ← q.mapE fun x => revertEntry B x.1.1 x.1.2 x.2
      pure (out.map (·.1), out.map (·.2))

/-- The casting of one argument of a `DualBoundary` method to the largest shape (`_boundary.py` 1375-1397, 1559-1583). -/
def castTo {α : Type} (n : ℕ) : Arr α → Except PyErr (List α)
  | .one a => .ok (List.replicate n a)
  | .many l => if l.length = n then .ok l else .error .valueError

/-- `DualBoundary.normal_coord` (`_boundary.py` 1369-1492). -/
noncomputable def dualNormalMix (D : DualObj) (s : DStore) (fresh : ℕ) (lat lt : Arr F) (height : Shape) (ow : Bool) :
    Except PyErr (Arr F × Arr F × Arr F × Arr F) :=
  match maxShape [lat.shape, lt.shape, height] with
  | none =>
    match lat, lt with
    | .one a, .one c => do
      let (out, _) ← dualNormal D s fresh [(a, c)] ow
      let o ← pyIdx out 0
      pure (.one o.1, .one o.2.1, .one o.2.2.1, .one o.2.2.2)
    | _, _ => .error .valueError
  | some n => do
    let a ← castTo n lat
    let c ← castTo n lt
    let _ ← castTo n (Arr.full height ())
    let (out, _) ← dualNormal D s fresh (a.zip c) ow
    pure (.many (out.map (·.1)), .many (out.map (·.2.1)), .many (out.map (·.2.2.1)), .many (out.map (·.2.2.2)))

/-- A latitude of the two equatorward regions (`_boundary.py` 1635-1637, 1789-1791). -/
noncomputable def equatorward (D : DualObj) (b : F) : Bool := absLt b (some D.ocbLat) || absLt b (some D.eabLat)

/-- `revert_coord` of a `DualBoundary` (`_boundary.py` 1634-1650) after the boundaries `ob` and `eb` at the local times `amlt`
are known: the entries of `cur` at the positions of equatorward latitudes are replaced.  `lat[imid] = x[imid]` raises if
one of the positions is outside one of the arrays. -/
noncomputable def putRegions (D : DualObj) (lats : List F) (cur : List (F × F)) (amlt ob eb : List F) :
    Except PyErr (List (F × F)) :=
  if lats.zipIdx.any (fun p => equatorward D p.1 &&
      (decide (cur.length ≤ p.2) || decide (amlt.length ≤ p.2) || decide (ob.length ≤ p.2) || decide (eb.length ≤ p.2)))
  then .error .indexError
  else .ok (cur.zipIdx.map fun p =>
    match lats[p.2]?, amlt[p.2]?, ob[p.2]?, eb[p.2]? with
    | some b, some m, some o, some e => dualRevertEntry D b p.1 m o e
    | _, _, _, _ => p.1)

/-- The magnetic local times as an array (`_boundary.py` 1605-1612): a single value is spread over the locations, an array is
kept. -/
def mltArray (single : Bool) (n : ℕ) : Arr F → List F
  | .one m => if single then [m] else List.replicate n m
  | .many m => m

/-- `DualBoundary.revert_coord` for arrays `lats` and `lts` of one length (`_boundary.py` 1585-1689); the corrections are as
given, `single` says that the location was given with single values (`out_shape == ()`). -/
noncomputable def dualRevertCast (D : DualObj) (s : DStore) (fresh : ℕ) (lats lts : List F) (rc : Arr F) (amlt : Option (Arr F))
    (single : Bool) (isOcb ow : Bool) : Except PyErr (List (F × F)) := do
  let (a, b) ← revertMix (selRec D.ocbRecs D.ocbRecInd) (.many lats) (.many lts) rc (some lats.length)
  let cur := a.entries.zip b.entries
  if isOcb || lats.all fun l => absGe l (some D.ocbLat) then pure cur
  else
    match amlt with
    | none => .error .valueError
    | some x =>
      let m := mltArray single lats.length x
      let (ob, eb, s1) ← boundStep D { s with heap := Function.update s.heap fresh m } fresh ow
      putRegions D lats cur (s1.heap fresh) ob eb

/-- `DualBoundary.revert_coord` (`_boundary.py` 1553-1689).  The shape of the corrections is not looked at (line 1557). -/
noncomputable def dualRevertMix (D : DualObj) (s : DStore) (fresh : ℕ) (lat lt rc : Arr F) (amlt : Option (Arr F)) (height : Shape)
    (isOcb ow : Bool) : Except PyErr (Arr F × Arr F) :=
  match maxShape [lat.shape, lt.shape, height] with
  | none =>
    match lat, lt with
    | .one a, .one c => do
      let out ← dualRevertCast D s fresh [a] [c] rc amlt true isOcb ow
      let o ← pyIdx out 0
      pure (.one o.1, .one o.2)
    | _, _ => .error .valueError
  | some n => do
    let a ← castTo n lat
    let c ← castTo n lt
    let _ ← castTo n (Arr.full height ())
    let out ← dualRevertCast D s fresh a c rc amlt false isOcb ow
    pure (.many (out.map (·.1)), .many (out.map (·.2)))

/-- Assigning `v` to (or filling with it) an array of shape `s`: a single value and an array of length one stretch. -/
def fillWith {α : Type} (s : Shape) (v : Arr α) : Except PyErr (Arr α) :=
  match s, v with
  | s, .one a => .ok (Arr.full s a)
  | none, .many [a] => .ok (.one a)
  | some n, .many l =>
    if l.length = n then .ok (.many l)
    else match l with
      | [a] => .ok (.many (List.replicate n a))
      | _ => .error .valueError
  | none, .many _ => .error .valueError

/-- A result as numpy holds it once a leading dimension of one is removed. -/
def plain : Arr F → Mix.Out F
  | .one a => .one a
  | .many l => .flat l

/-- The same with that dimension kept. -/
def boxed : Arr F → Mix.Out F
  | .one a => .flat [a]
  | .many l => .boxed l

/-- The radii at position `p.2`, `p.1` those of a location inside the OCB (`_boundary.py` 1806-1814). -/
noncomputable def radiiAt (D : DualObj) (lats ob eb : List F) (p : (F × F) × ℕ) : F × F :=
  match lats[p.2]?, ob[p.2]?, eb[p.2]? with
  | some b, some o, some e => calcREntry D b p.1.2 o e
  | _, _, _ => p.1

/-- `DualBoundary.calc_r` (`_boundary.py` 1759-1828), scaled and unscaled radius; `boundMlt` is the shape of the normalised local
times, which matter in no other way.  A single latitude gives every argument a leading dimension of one (1766-1771), which is
removed at the end (1826) but not if there is no current pair (1780).  An array of latitudes with a single
local time makes the boundary latitude a Python float (831), which has no entries (1809, 1814). -/
noncomputable def calcRMix (D : DualObj) (s : DStore) (fresh : ℕ) (lat : Arr F) (boundMlt : Shape) (amlt rc : Arr F) (ow : Bool) :
    Except PyErr (Mix.Out F × Mix.Out F) :=
  let outer := maxShape [lat.shape, boundMlt, rc.shape]
  let scaled := Arr.full outer (some (90 - |D.ocbLat|) : F)
  let out := match lat with
    | .one _ => boxed
    | .many _ => plain
  if D.recInd < 0 ∨ D.records ≤ D.recInd then .ok (out scaled, out (Arr.full outer none))
  else do
    let oi ← pyIdx D.ocbInd D.recInd
    let B ← pyIdx D.ocbRecs oi
    let unscaled ← fillWith outer (rc.map fun c => c.map fun c => B.r + c)
    let (ob, eb, _) ← boundStep D { s with heap := Function.update s.heap fresh (amlt.entries) } fresh ow
    match lat with
    | .one b =>
      if equatorward D b then do
        let v ← fillWith outer (.many ((ob.zip eb).map fun r => (calcREntry D b none r.1 r.2).2))
        pure (plain (scaled.map fun _ => (calcREntry D b none none none).1), plain v)
      else pure (plain scaled, plain unscaled)
    | .many lats =>
      let start := scaled.entries.zip unscaled.entries
      if lats.any (equatorward D) then
        match amlt with
        | .one _ => .error .typeError
        | .many _ =>
          if lats.zipIdx.any (fun p => equatorward D p.1 && (decide (ob.length ≤ p.2) || decide (eb.length ≤ p.2))) then
            .error .indexError
          else
            let res := start.zipIdx.map (radiiAt D lats ob eb)
            pure (.flat (res.map (·.1)), .flat (res.map (·.2)))
      else pure (.flat (start.map (·.1)), .flat (start.map (·.2)))

end Ocb.Scale
