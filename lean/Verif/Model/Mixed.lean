import Verif.Model.Scaling

/-!
# Model of the functions of `ocbpy/vectors.py` called with single values and arrays mixed

Every argument is documented as "float or array-like".  Here each argument is a single value or an array of one common
length `k`; arrays of length one stretched to another length, and arrays of more dimensions, are not modelled.  NaN is
`none`.
-/

set_option autoImplicit false

namespace Ocb.Mix

open Ocb.Time Ocb.Vec

/-- A Python float: NaN or a real. -/
abbrev F := Option ℝ

/-- An argument: a single value (shape `()`) or an array of shape `(k,)`. -/
inductive Arg (k : ℕ) (α : Type*) where
  | one (a : α)
  | many (f : Fin k → α)

namespace Arg

variable {k : ℕ} {α β γ : Type*}

/-- The value that broadcasting uses at position `i`. -/
def val : Arg k α → Fin k → α
  | one a, _ => a
  | many f, i => f i

/-- `len(x.shape) > 0` -/
def isArr : Arg k α → Bool
  | one _ => false
  | many _ => true

/-- The value of an argument of shape `()`. -/
def single : Arg k α → Option α
  | one a => some a
  | many _ => none

/-- A function of one argument applied entry by entry. -/
def map (f : α → β) : Arg k α → Arg k β
  | one a => one (f a)
  | many g => many fun i => f (g i)

/-- A function of two arguments applied entry by entry with broadcasting: single only if both are. -/
def zip (f : α → β → γ) : Arg k α → Arg k β → Arg k γ
  | one a, one b => one (f a b)
  | x, y => many fun i => f (x.val i) (y.val i)

/-- `np.any(x)` -/
def any : Arg k Bool → Bool
  | one b => b
  | many f => (List.finRange k).any f

end Arg

variable {k : ℕ}

/-- A result: a single value, an array of shape `(n,)`, or an array of shape `(1, n)`. -/
inductive Out (α : Type*) where
  | one (o : α)
  | flat (l : List α)
  | boxed (l : List α)

/-- The angle of the spherical triangle for two latitudes, NaN if one is (`vectors.py` 113-142). -/
noncomputable def triF (dl : ℝ) : F → F → F
  | some a, some b => triangleAngle dl a b
  | _, _ => none

/-- An argument as a result of the same shape. -/
def Arg.out {α : Type*} : Arg k α → Out α
  | .one a => .one a
  | .many f => .flat ((List.finRange k).map f)

/-- The truth value of a comparison (`if abs(data_lat) > abs(pole_lat)`, `vectors.py` 93): an array of other than one
entry has none and raises. -/
def truth : Arg k Bool → Except PyErr Bool
  | .one b => .ok b
  | .many f => if h : k = 1 then .ok (f ⟨0, by omega⟩) else .error .valueError

/-- `calc_vec_pole_angle(data_lt, data_lat, pole_lt, pole_lat)` (`vectors.py` 48-142).  The shape that selects the code
is that of the difference of the local times alone (line 91): if both are single, the comparison of the latitudes on
the meridian of the pole is that for single values.  If a local time is an array the masks at lines 99-108 are used. -/
noncomputable def angleMix (dataLt dataLat poleLt poleLat : Arg k F) : Except PyErr (Out F) :=
  match Arg.zip ltDiff poleLt dataLt with
  | .one none => .ok (Arg.zip (fun _ _ => none) dataLat poleLat).out
  | .one (some d) => do
    let dl ← hr2rad d Real.pi
    if dl = -Real.pi ∨ dl = 0 ∨ dl = Real.pi then
      let b ← truth (Arg.zip (fun a b => gtF (a.map abs) (b.map abs)) dataLat poleLat)
      return .one (some (if b then 180 else 0))
    else return (Arg.zip (triF dl) dataLat poleLat).out
  | .many _ => (Ocb.mapE (fun i => poleAngleEntry (dataLt.val i) (dataLat.val i) (poleLt.val i) (poleLat.val i))
      (List.finRange k)).map .flat

/-- The quadrant found by the branch for single local times (`vectors.py` 213-221): the one that all angles share, 0
if there is none. -/
def collapse (qs : List ℤ) : ℤ :=
  if qs.all (fun q => decide (q = 1)) then 1
  else if qs.all (fun q => decide (q = 2)) then 2
  else if qs.all (fun q => decide (q = 3)) then 3
  else if qs.all (fun q => decide (q = 4)) then 4
  else 0

/-- `define_pole_quadrants(data_lt, pole_lt, pole_angle)` (`vectors.py` 145-228).  The result has the shape of the
difference of the local times (line 176), whatever the shape of the angles. -/
noncomputable def poleQuadMix (dataLt poleLt ang : Arg k F) : Arg k ℤ :=
  match dataLt, poleLt with
  | .one d, .one p => .one (collapse (match ang with
    | .one a => [poleQuad d p a]
    | .many f => (List.finRange k).map fun i => poleQuad d p (f i)))
  | d, p => .many fun i => poleQuad (d.val i) (p.val i) (ang.val i)

/-- `define_vect_quadrants(vect_n, vect_e)` (`vectors.py` 231-286). -/
noncomputable def vectQuadMix (n e : Arg k F) : Arg k ℤ := Arg.zip vectQuad n e

/-- The ten arguments of `adjust_vector` (`vectors.py` 517-518). -/
structure Call (k : ℕ) where
  lt : Arg k F
  lat : Arg k F
  n : Arg k F
  e : Arg k F
  z : Arg k F
  vq : Arg k ℤ
  poleLt : Arg k F
  poleLat : Arg k F
  ang : Arg k F
  pq : Arg k ℤ

namespace Call

/-- The ten values at position `i`. -/
def row (c : Call k) (i : Fin k) : VIn :=
  { lt := c.lt.val i, lat := c.lat.val i, n := c.n.val i, e := c.e.val i, z := c.z.val i, vq := c.vq.val i
    poleLt := c.poleLt.val i, poleLat := c.poleLat.val i, ang := c.ang.val i, pq := c.pq.val i }

/-- All ten values if `out_shape` (`vectors.py` 574-575) is `()`. -/
def single (c : Call k) : Option VIn := do
  return { lt := ← c.lt.single, lat := ← c.lat.single, n := ← c.n.single, e := ← c.e.single, z := ← c.z.single
           vq := ← c.vq.single, poleLt := ← c.poleLt.single, poleLat := ← c.poleLat.single
           ang := ← c.ang.single, pq := ← c.pq.single }

open Classical in
/-- `norm_mask` (`vectors.py` 581-583), of the common shape of the horizontal components and the angle. -/
noncomputable def norm (c : Call k) : Arg k Bool :=
  Arg.zip (fun z s => !(z || s)) (Arg.zip (fun n e => decide (n = some 0) && decide (e = some 0)) c.n c.e)
    (c.ang.map fun a => decide (a = some 0) || decide (a = some 180))

/-- Whether quadrants count as not defined (`vectors.py` 634-635 and 638-639): a single quadrant is 0, or one of an
array is at an entry of `norm_mask`. -/
def undefinedQuad (m : Arg k Bool) : Arg k ℤ → Bool
  | .one q => decide (q = 0)
  | .many f => (List.finRange k).any fun i => m.val i && decide (f i = 0)

/-- `vect_quad` after `vectors.py` 634-636. -/
noncomputable def vqNow (c : Call k) : Arg k ℤ :=
  if undefinedQuad c.norm c.vq then vectQuadMix c.n c.e else c.vq

/-- `pole_quad` after `vectors.py` 638-640. -/
noncomputable def pqNow (c : Call k) : Arg k ℤ :=
  if undefinedQuad c.norm c.pq then poleQuadMix c.lt c.poleLt c.ang else c.pq

/-- The general case at entry `i` with the quadrants in force.  The vertical component is lost together with the others
only if it is an array (`vectors.py` 670-677). -/
noncomputable def normAt (c : Call k) (i : Fin k) : VOut :=
  normOut c.z.isArr (c.pqNow.val i) (c.vqNow.val i) (c.row i)

end Call

/-- `adjust_vector` (`vectors.py` 517-710).  For a single horizontal vector the results are made anew from the entries of
`norm_mask` (lines 688-702): with an array of angles only those are kept; with a single angle indexing by the single
truth value adds a leading axis, unless the quadrants are single too. -/
noncomputable def adjustMix (c : Call k) : Except PyErr (Out VOut) :=
  match c.single with
  | some x => (adjustOne x).map .one
  | none =>
    if c.norm.any then
      if ¬ (c.pqNow.map inQuads).any then .error .valueError
      else if ¬ (c.vqNow.map inQuads).any then .error .valueError
      else if c.n.isArr || c.e.isArr then
        .ok (.flat ((List.finRange k).map fun i => if c.norm.val i then c.normAt i else specialOut (c.row i)))
      else if c.ang.isArr then
        .ok (.flat (((List.finRange k).filter fun i => c.norm.val i).map c.normAt))
      else if c.pqNow.isArr || c.vqNow.isArr then .ok (.boxed ((List.finRange k).map c.normAt))
      else .ok (.flat ((List.finRange k).map c.normAt))
    else .ok (.flat ((List.finRange k).map fun i => specialOut (c.row i)))

end Ocb.Mix
