import Verif.Model.Pairs

/-!
# Model of `match_data_ocb` for a `DualBoundary`, with selection criteria

With criteria the pairs are selected anew in every call (`cycle_boundary.py` 127-144).  `Cycle` has the call for pairs that
are selected already.

Simplification: both members have records; times and differences are in microseconds.
-/

set_option autoImplicit false

namespace Ocb.Reselect

open Ocb.Cycle

/-- A `DualBoundary`: its members, the largest time difference of a pair, the pairs it has now, and its cursor. -/
structure Obj where
  ocb : Bnd
  eab : Bnd
  maxDelta : ℤ
  pairs : Pairs
  cur : ℤ

/-- Does the call have criteria (`cycle_boundary.py` 133-134)? -/
def given (s : Sel) : Bool := s.min.isSome || s.max.isSome || decide (0 < s.kw.length)

/-- The end of the call, for the pairs and cursor in force (`cycle_boundary.py` 150-221). -/
def search (D : Obj) (dat : List ℤ) (idat : ℕ) (tol : ℤ) : Except PyErr (Option ℕ × Obj) :=
  match matchData (dualCycler D.pairs.dtime) D.cur dat idat tol with
  | .error e => .error e
  | .ok (i, r) => .ok (i, { D with cur := r })

/-- `match_data_ocb(dual, dat_dtime, idat, max_tol, min_merit, max_merit, **kwargs)` (`cycle_boundary.py` 68-221): the index
that is returned and the object afterwards.  The criteria are used for both members; `set_good_ind` sets the cursor to 0
(`_boundary.py` 1307). -/
def matchDual (D : Obj) (s : Sel) (dat : List ℤ) (idat : ℕ) (tol : ℤ) : Except PyErr (Option ℕ × Obj) :=
  if dat.length ≤ idat then .ok (some idat, D)
  else if D.pairs.records ≤ D.cur then .ok (some idat, D)
  else if given s then
    match setGoodInd D.ocb D.eab s s D.maxDelta with
    | .error e => .error e
    | .ok p =>
      let D' := { D with pairs := p, cur := 0 }
      if p.records ≤ 0 then .ok (some idat, D') else search D' dat idat tol
  else search D dat idat tol

theorem search_ge (D : Obj) (dat : List ℤ) (idat : ℕ) (tol : ℤ) (i : ℕ) (E : Obj)
    (h : search D dat idat tol = .ok (some i, E)) : idat ≤ i := by
  unfold search at h
  split at h
  · cases h
  · rename_i j r hm
    cases h
    exact matchData_ge _ _ _ _ _ _ _ hm

theorem matchDual_ge (D : Obj) (s : Sel) (dat : List ℤ) (idat : ℕ) (tol : ℤ) (i : ℕ) (E : Obj)
    (h : matchDual D s dat idat tol = .ok (some i, E)) : idat ≤ i := by
  unfold matchDual at h
  split at h
  · cases h; exact le_rfl
  split at h
  · cases h; exact le_rfl
  split at h
  · split at h
    · cases h
    · simp only [] at h
      split at h
      · cases h; exact le_rfl
      · exact search_ge _ _ _ _ _ _ h
  · exact search_ge _ _ _ _ _ _ h

/-- The loop of the drivers (`vort.py` 160-212, `pysat_instruments.py` 380-470) with a `DualBoundary` and criteria: the data
index, and the record of the OCB and of the EAB at the cursor, for every datum that is processed.
`rec` in the result of `drive` is the number of the pair. -/
def driveDual (D : Obj) (s : Sel) (dat : List ℤ) (tol : ℤ) (idat : ℕ) : Except PyErr (List (ℕ × ℤ × ℤ)) :=
  if idat < dat.length ∧ D.cur < D.pairs.records then
    match h : matchDual D s dat idat tol with
    | .error e => .error e
    | .ok (none, _) => .error .typeError
    | .ok (some i, E) =>
      if i < dat.length ∧ E.cur < E.pairs.records then
        match pyIdx E.pairs.ocbInd E.cur, pyIdx E.pairs.eabInd E.cur with
        | .ok o, .ok e =>
          match driveDual E s dat tol (i + 1) with
          | .error e => .error e
          | .ok l => .ok ((i, o, e) :: l)
        | .error e, _ => .error e
        | _, .error e => .error e
      else .ok []
  else .ok []
termination_by dat.length - idat
decreasing_by
  have := matchDual_ge _ _ _ _ _ _ _ h
  omega

end Ocb.Reselect
