import Verif.Model.Cycle

/-!
# Specification vocabulary for record selection and matching

Independent of the loops of the model: what a good record is, what sorted means, what a match is.
-/

set_option autoImplicit false

namespace Ocb.Cycle

/-- All per-record arrays have one entry per record. -/
def Bnd.WF (b : Bnd) : Prop :=
  b.fom.length = b.dtime.length ∧ ∀ k vals, b.attr k = some vals → vals.length = b.dtime.length

/-- A criterion lets a value pass: the documented comparison is not violated. -/
def Passes (op : String) (v bound : Fl ℚ) : Prop :=
  (op = "min" → Fl.le v bound = false) ∧ (op = "mineq" → Fl.lt v bound = false) ∧
  (op = "equal" → Fl.eq v bound = true) ∧ (op = "maxeq" → Fl.lt bound v = false) ∧
  (op = "max" → Fl.le bound v = false)

/-- Record `k` meets all criteria: its merit is between the limits and no keyword criterion is violated. -/
def Good (b : Bnd) (mn mx : Fl ℚ) (kw : List Criterion) (k : ℤ) : Prop :=
  (∃ m, b.fom[k.toNat]? = some m ∧ Fl.le mn m = true ∧ Fl.le m mx = true) ∧
    ∀ c ∈ kw, ∀ vals, b.attr c.key = some vals → ∀ v, vals[k.toNat]? = some v → Passes c.op v c.bound

/-- The limits in force: the caller's, or the object's defaults. -/
def limits (b : Bnd) (minMerit maxMerit : Option (Fl ℚ)) : Fl ℚ × Fl ℚ :=
  (minMerit.getD b.minFom, maxMerit.getD b.maxFom)

/-- Record `k` is selected by the arguments of a call. -/
def Selected (b : Bnd) (minMerit maxMerit : Option (Fl ℚ)) (kw : List Criterion) (k : ℤ) : Prop :=
  Good b (minMerit.getD b.minFom) (maxMerit.getD b.maxFom) kw k

/-- The two kinds of boundary objects that can be passed to `match_data_ocb`, with what their good records are. -/
inductive IsBoundary : Cycler → (ℤ → Prop) → Prop where
  | ocb (b : Bnd) (mn mx : Option (Fl ℚ)) (kw : List Criterion) : b.WF →
      IsBoundary (b.cycler mn mx kw) (Selected b mn mx kw)
  | dual (times : List ℤ) : times ≠ [] → IsBoundary (dualCycler times) (fun _ => True)

/-- Entry `k` of the list is `t`. -/
def At (l : List ℤ) (k t : ℤ) : Prop := 0 ≤ k ∧ l[k.toNat]? = some t

/-- The records that a search starting with cursor `rec` may use: the record at the cursor and the good ones
after it. -/
def Cand (good : ℤ → Prop) (rec k : ℤ) : Prop := rec ≤ k ∧ (k = rec ∨ good k)

/-- The times at the positions satisfying `p` do not decrease. -/
def NondecOn (l : List ℤ) (p : ℤ → Prop) : Prop :=
  ∀ a b s t, a ≤ b → p a → p b → At l a s → At l b t → s ≤ t

/-- The times at the positions satisfying `p` strictly increase. -/
def StrictOn (l : List ℤ) (p : ℤ → Prop) : Prop :=
  ∀ a b s t, a < b → p a → p b → At l a s → At l b t → s < t

/-- Datum `i` and record `k` are within the tolerance. -/
def Close (c : Cycler) (dat : List ℤ) (tol : ℤ) (i : ℕ) (k : ℤ) : Prop :=
  ∃ d t, dat[i]? = some d ∧ At c.times k t ∧ |t - d| ≤ tol

/-- Record `k` is at least as close to datum `i` as record `k'`. -/
def NoFarther (c : Cycler) (dat : List ℤ) (i : ℕ) (k k' : ℤ) : Prop :=
  ∀ d t t', dat[i]? = some d → At c.times k t → At c.times k' t' → |t - d| ≤ |t' - d|

end Ocb.Cycle
