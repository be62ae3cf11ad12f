import Verif.Model.Mixed

/-!
# Model of the comparisons with `where=`

`np.less(x, y, where=mask)` and its kin, called without `out=`, leave the entries outside the mask uninitialised: they
hold whatever was in memory.  The other files of the model leave these entries out.  Here they are arbitrary: every
comparison may give any truth value outside its mask, another one at every call.  Warnings of numpy are not modelled.
-/

set_option autoImplicit false

namespace Ocb.Where

open Ocb.Time Ocb.Vec Ocb.Mix
open Ocb.Scale (npArcsin)

/-- One entry of a comparison with `where=`: the comparison inside the mask, anything outside. -/
def wh (ok c junk : Bool) : Bool := if ok then c else junk

/-- The possible results of a comparison `c` of every entry with `where=ok`. -/
def Cmp {α : Type*} (c ok : α → Bool) (xs : List α) (out : List Bool) : Prop :=
  List.Forall₂ (fun x o => ∃ junk, o = wh (ok x) (c x) junk) xs out

/-- The possible values of `np.less(x, y, where=ok) & ok`. -/
def Mask {α : Type*} (c ok : α → Bool) (xs : List α) (m : List Bool) : Prop :=
  ∃ out, Cmp c ok xs out ∧ m = List.zipWith (fun a b => a && b) out (xs.map ok)

/-- `xs[m] = f(xs[m])` -/
def assign {α : Type*} (f : α → α) (xs : List α) (m : List Bool) : List α :=
  List.zipWith (fun x b => if b then f x else x) xs m

/-- `while np.any(m): xs[m] = f(xs[m]); m = ...`, the mask being made anew, possibly with other rubbish, at every test. -/
inductive Loop {α : Type*} (T : List α → List Bool → Prop) (f : α → α) : List α → List α → Prop where
  | done {xs : List α} {m : List Bool} : T xs m → m.any id = false → Loop T f xs xs
  | step {xs ys : List α} {m : List Bool} : T xs m → m.any id = true → Loop T f (assign f xs m) ys → Loop T f xs ys

section FixRange

variable {K : Type*} [Field K] [LinearOrder K]

/-- `~np.isnan(x)` -/
def notNan : Fl K → Bool
  | .nan => false
  | _ => true

/-- `fix_range` on an array (`ocb_time.py` 399-452). -/
def FixRangeWhere (xs : List (Fl K)) (mn mx : K) (vr : Option K) (out : Except PyErr (List (Fl K))) : Prop :=
  if mx ≤ mn then out = .error .valueError
  else
    let r := vr.getD (mx - mn)
    if r ≤ 0 then out = .error .valueError
    else ∃ ys zs, Loop (Mask (fun x => Fl.le (.fin mx) x) notNan) (subFl r) xs ys ∧
      Loop (Mask (fun x => Fl.lt x (.fin mn)) notNan) (addFl r) ys zs ∧ out = .ok zs

end FixRange

/-- `archav(hav)` (`ocb_scaling.py` 1196-1242), one entry. -/
noncomputable def archavWhere (j : Fin 2 → Bool) (h : F) : F :=
  let norm := wh h.isSome (leF (some (1 / 10 ^ 16)) h) (j 0) && h.isSome
  let small := wh h.isSome (gtF (some (1 / 10 ^ 16)) (h.map abs)) (j 1) && h.isSome
  let alpha : F := none
  let alpha := if norm then h.bind fun x => (npSqrt x).bind fun s => (npArcsin s).map (2 * ·) else alpha
  if small then some 0 else alpha

/-- `calc_vec_pole_angle` (`vectors.py` 48-142), one entry of arrays. -/
noncomputable def poleAngleWhere (j : Fin 2 → Bool) (dataLt dataLat poleLt poleLat : F) : Except PyErr F := do
  let dl : F ← match ltDiff poleLt dataLt with
    | none => .ok none
    | some d => (hr2rad d Real.pi).map some
  let on := dl.any fun x => decide (x = 0 ∨ |x| = Real.pi)
  let flat := on && wh dl.isSome (gtF (dataLat.map abs) (poleLat.map abs)) (j 0)
  let zero := on && wh dl.isSome (leF (dataLat.map abs) (poleLat.map abs)) (j 1)
  let ang : F := if flat then some 180 else none
  let ang := if zero then some 0 else ang
  if !zero && !flat then
    match dl, dataLat, poleLat with
    | some d, some a, some b => return triangleAngle d a b
    | _, _, _ => return none
  else return ang

/-- The quadrant from the four masks, each of which is an `&` of two comparisons and the mask of the numbers (`vectors.py`
202-226 and 256-284), one entry: the assignments are made in the order of the code. -/
def quadWhere (j : Fin 8 → Bool) (ok : Bool) (a1 a2 b1 b2 : Bool) : ℤ :=
  let q1 := wh ok a1 (j 0) && wh ok b1 (j 1) && ok
  let q2 := wh ok a1 (j 2) && wh ok b2 (j 3) && ok
  let q3 := wh ok a2 (j 4) && wh ok b2 (j 5) && ok
  let q4 := wh ok a2 (j 6) && wh ok b1 (j 7) && ok
  let q : ℤ := 0
  let q := if q1 then 1 else q
  let q := if q2 then 2 else q
  let q := if q3 then 3 else q
  if q4 then 4 else q

/-- `define_vect_quadrants(vect_n, vect_e)` (`vectors.py` 231-286), one entry. -/
noncomputable def vectQuadWhere (j : Fin 8 → Bool) (n e : F) : ℤ :=
  quadWhere j (n.isSome && e.isSome) (leF (some 0) n) (gtF (some 0) n) (leF (some 0) e) (gtF (some 0) e)

/-- The quadrant of a pole from the difference of local time and the angle (`vectors.py` 201-226), one entry. -/
noncomputable def poleQuadWhere (j : Fin 8 → Bool) (d a : F) : ℤ :=
  quadWhere j (a.isSome && d.isSome) (gtF (some 90) a) (leF (some 90) a) (gtF (some 12) d) (leF (some 12) d)

/-- `define_pole_quadrants(data_lt, pole_lt, pole_angle)` for arrays of one length (`vectors.py` 145-228); the entries
are the local times of data and pole and the angle. -/
noncomputable def PoleQuadsWhere (xs : List (F × F × F)) (out : List ℤ) : Prop :=
  ∃ d1 d2, Loop (Mask (fun x => gtF (some 0) x) Option.isSome) (Option.map (· + 24)) (xs.map fun x => ltDiff x.2.1 x.1) d1 ∧
    Loop (Mask (fun x => leF (some 24) (x.map abs)) Option.isSome)
      (Option.map fun x => x - 24 * (SignType.sign x : ℝ)) d1 d2 ∧
    List.Forall₂ (fun x q => ∃ j, q = poleQuadWhere j x.1 x.2) (d2.zip (xs.map fun x => x.2.2)) out

/-- `sign_mask` of `adjust_vector` (`vectors.py` 620-621), one entry. -/
noncomputable def signFlipWhere (j : Bool) (ang lat poleLat : F) : Bool :=
  ang.any (fun x => decide (x = 0)) && wh lat.isSome (leF poleLat lat) j && lat.isSome

/-! ## `calc_dest_vec_sign` -/

variable {k : ℕ}

/-- A comparison of two arguments with `where=nan_mask`, where the mask says that both are numbers. -/
def cmpWhere (c : F → F → Bool) (j0 : Bool) (j : Fin k → Bool) : Arg k F → Arg k F → Arg k Bool
  | .one a, .one b => .one (wh (a.isSome && b.isSome) (c a b) j0)
  | x, y => .many fun i => wh ((x.val i).isSome && (y.val i).isSome) (c (x.val i) (y.val i)) (j i)

/-- A comparison of two floats, false with NaN. -/
def lift2 (c : ℝ → ℝ → Bool) : F → F → Bool
  | some x, some y => c x y
  | _, _ => false

/-- The argument `quads`: a dictionary of dictionaries of numpy truth values or arrays of them (Python's own truth values
have no `shape` and are not modelled). -/
abbrev Quads (k : ℕ) := List (ℤ × List (ℤ × Arg k Bool))

/-- `{o: {v: (pole_quad == o) & (vect_quad == v) & nan_mask ...} ...}` (`vectors.py` 454-455), looked up. -/
def ownQuads (pq vq : Arg k ℤ) (b p : Arg k F) (o v : ℤ) : Arg k Bool :=
  Arg.zip (fun x y => x && y) (Arg.zip (fun x y => x && y) (pq.map (· == o)) (vq.map (· == v)))
    (Arg.zip (fun x y => x && y) (b.map Option.isSome) (p.map Option.isSome))

/-- `quads[o][v]` -/
def Quads.get (q : Quads k) (o v : ℤ) : Except PyErr (Arg k Bool) :=
  match (q.lookup o).bind (·.lookup v) with
  | some m => .ok m
  | none => .error .keyError

/-- `quads` after `vectors.py` 453-455. -/
def quadsInForce (given : Option (Quads k)) (pq vq : Arg k ℤ) (b p : Arg k F) (o v : ℤ) : Except PyErr (Arg k Bool) :=
  match given with
  | none => .ok (ownQuads pq vq b p o v)
  | some q => if ([1, 2, 3, 4] : List ℤ).all (fun o => (q.lookup o).isSome) then q.get o v else .ok (ownQuads pq vq b p o v)

/-- `a | b` -/
def orA (a b : Arg k Bool) : Arg k Bool := Arg.zip (fun x y => x || y) a b

/-- `a & b` -/
def andA (a b : Arg k Bool) : Arg k Bool := Arg.zip (fun x y => x && y) a b

/-- The four comparisons of one of the two parts. -/
abbrev Four (k : ℕ) := Fin 4 → Arg k Bool

/-- `pmask` of the northward part (`vectors.py` 467-475). -/
def northMask (get : ℤ → ℤ → Except PyErr (Arg k Bool)) (c : Four k) : Except PyErr (Arg k Bool) := do
  let same := orA (orA (orA (← get 1 1) (← get 2 2)) (← get 3 3)) (← get 4 4)
  let m := orA same (andA (orA (← get 1 4) (← get 2 3)) (c 0))
  let m := orA m (andA (orA (← get 1 2) (← get 2 1)) (c 1))
  let m := orA m (andA (orA (← get 3 4) (← get 4 3)) (c 2))
  return orA m (andA (orA (← get 3 2) (← get 4 1)) (c 3))

/-- `pmask` of the eastward part (`vectors.py` 492-500). -/
def eastMask (get : ℤ → ℤ → Except PyErr (Arg k Bool)) (c : Four k) : Except PyErr (Arg k Bool) := do
  let same := orA (orA (orA (← get 1 4) (← get 2 1)) (← get 3 2)) (← get 4 3)
  let m := orA same (andA (orA (← get 1 1) (← get 4 4)) (c 0))
  let m := orA m (andA (orA (← get 3 1) (← get 2 4)) (c 1))
  let m := orA m (andA (orA (← get 4 2) (← get 1 3)) (c 2))
  return orA m (andA (orA (← get 2 2) (← get 3 3)) (c 3))

/-- The signs from `pmask`, in the shape of `quads[1][1]` (`vectors.py` 477-487 and 502-512): a single result is 1 if some
entry of the mask is set and then -1 if some is not. -/
def signOf (like pmask : Arg k Bool) : Arg k ℤ :=
  match like with
  | .one _ => .one (if (pmask.map not).any then -1 else if pmask.any then 1 else 0)
  | .many _ => .many fun i => if pmask.val i then 1 else -1

/-- What was in memory: a truth value for a single result and one for every entry, for each of eight comparisons. -/
abbrev Junk (k : ℕ) := Fin 8 → Bool × (Fin k → Bool)

/-- The comparisons of the northward part (`vectors.py` 462-475). -/
noncomputable def northCmp (J : Junk k) (b p : Arg k F) : Four k :=
  ![cmpWhere (lift2 fun b p => decide (b ≤ p + 90)) (J 0).1 (J 0).2 b p,
    cmpWhere (lift2 fun b p => decide (b ≤ 90 - p)) (J 1).1 (J 1).2 b p,
    cmpWhere (lift2 fun b p => decide (180 - (p - 90) ≤ b)) (J 2).1 (J 2).2 b p,
    cmpWhere (lift2 fun b p => decide (p - 90 ≤ b)) (J 3).1 (J 3).2 b p]

/-- The comparisons of the eastward part (`vectors.py` 490-500). -/
noncomputable def eastCmp (J : Junk k) (b p : Arg k F) : Four k :=
  ![cmpWhere (lift2 fun b p => decide (p ≤ b)) (J 4).1 (J 4).2 b p,
    cmpWhere (lift2 fun b p => decide (b ≤ 180 - p)) (J 5).1 (J 5).2 b p,
    cmpWhere (lift2 fun b p => decide (180 - p ≤ b)) (J 6).1 (J 6).2 b p,
    cmpWhere (lift2 fun b p => decide (b ≤ p)) (J 7).1 (J 7).2 b p]

/-- `calc_dest_vec_sign(pole_quad, vect_quad, base_naz_angle, pole_angle, north, east, quads)` (`vectors.py` 402-514): the
northward and the eastward signs. -/
noncomputable def vecSigns (J : Junk k) (pq vq : Arg k ℤ) (b p : Arg k F) (north east : Bool) (given : Option (Quads k)) :
    Except PyErr (Arg k ℤ × Arg k ℤ) :=
  if ¬ (pq.map inQuads).any then .error .valueError
  else if ¬ (vq.map inQuads).any then .error .valueError
  else
    let get := quadsInForce given pq vq b p
    do
      let like ← get 1 1
      let zero : Arg k ℤ := like.map fun _ => 0
      let n ← if north then (northMask get (northCmp J b p)).map (signOf like) else .ok zero
      let e ← if east then (eastMask get (eastCmp J b p)).map (signOf like) else .ok zero
      return (n, e)

/-! ## The `vect_mag` setter -/

/-- Whether the setter warns (`ocb_scaling.py` 472-479); the entries are the magnitudes given and those calculated, after
broadcasting.  Nothing is compared if all given ones are NaN. -/
def MagWarns (xs : List (F × F)) (w : Bool) : Prop :=
  if xs.all fun x => x.1.isNone then w = false
  else ∃ out, Cmp (fun x : F × F => gtF ((ltDiff x.1 x.2).map abs) (some (1 / 1000))) (fun x => x.1.isSome) xs out ∧
    w = out.any id

end Ocb.Where
