import Mathlib.Order.Defs.LinearOrder
import Mathlib.Data.Int.Notation

/-!
# Common vocabulary of the model

Python exceptions as values, while loops as a big-step relation, and numpy's special float values.
-/

set_option autoImplicit false

namespace Ocb

/-- The Python exception classes that the modelled code can raise. -/
inductive PyErr where
  | valueError
  | typeError
  | indexError
  | keyError
  | ioError
  | attributeError
  | unboundLocal
  | overflowError
  deriving DecidableEq, Repr

/-- Big-step semantics of `while c(s): s = b(s)`.  `While c b s t` says that the loop entered in state `s`
stops after finitely many passes, in state `t`.  A loop that never stops is one for which no `t` exists. -/
inductive While {σ : Type*} (c : σ → Bool) (b : σ → σ) : σ → σ → Prop where
  | done {s : σ} : c s = false → While c b s s
  | step {s t : σ} : c s = true → While c b (b s) t → While c b s t

/-- A numpy float: NaN, the two infinities, or a finite number of the field `K`
(`K = ℚ` holds every double exactly, `K = ℝ` is the idealised arithmetic). -/
inductive Fl (K : Type*) where
  | nan
  | ninf
  | pinf
  | fin (x : K)
  deriving DecidableEq, Repr

namespace Fl

variable {K : Type*} [LinearOrder K]

/-- `a <= b` as IEEE 754 (and Python) compare: false as soon as a NaN is involved. -/
def le : Fl K → Fl K → Bool
  | nan, _ => false
  | _, nan => false
  | ninf, _ => true
  | _, pinf => true
  | fin a, fin b => decide (a ≤ b)
  | _, _ => false

/-- `a < b` as IEEE 754 (and Python) compare. -/
def lt : Fl K → Fl K → Bool
  | nan, _ => false
  | _, nan => false
  | ninf, ninf => false
  | ninf, _ => true
  | pinf, _ => false
  | fin _, pinf => true
  | fin _, ninf => false
  | fin a, fin b => decide (a < b)

/-- `a == b` as IEEE 754 (and Python) compare: NaN differs from everything. -/
def eq : Fl K → Fl K → Bool
  | nan, _ => false
  | _, nan => false
  | a, b => decide (a = b)

end Fl

/-- Python's `seq[i]` for an integer index: negative indices count from the end, anything else out of range is
an `IndexError` (`none` here). -/
def pyGet {α : Type*} (l : List α) (i : ℤ) : Option α :=
  if 0 ≤ i then l[i.toNat]?
  else if 0 ≤ i + l.length then l[(i + l.length).toNat]? else none

/-- `seq[i]` as a value or the exception it raises. -/
def pyIdx {α : Type*} (l : List α) (i : ℤ) : Except PyErr α :=
  match pyGet l i with
  | some a => .ok a
  | none => .error .indexError

/-- `[f(x) for x in l]` where `f` can raise. -/
def mapE {α β : Type*} (f : α → Except PyErr β) : List α → Except PyErr (List β)
  | [] => .ok []
  | a :: l =>
    match f a with
    | .error e => .error e
    | .ok b =>
      match mapE f l with
      | .error e => .error e
      | .ok bs => .ok (b :: bs)

end Ocb
