import Verif.Model.Cycle

/-!
# `match_data_ocb` with a tolerance that is not an integer (`ocbpy/cycle_boundary.py` 68-221)

`Cycle` drops the messages.  Two of them format the tolerance with `{:d}`, which a `float` refuses with a `ValueError`
even if it is a whole number.
-/

set_option autoImplicit false

namespace Ocb.Cycle

/-- What `"{:d}".format(max_tol)` does before the code goes on with `x` (`cycle_boundary.py` 184-186, 216-218); `isInt`:
the tolerance is an `int`.  Simplification: a `bool` or a numpy integer counts as `int`, everything else as `float`. -/
def saying {α : Type} (isInt : Bool) (x : Except PyErr α) : Except PyErr α := if isInt then x else .error .valueError

/-- The code after the loop with its message (`cycle_boundary.py` 214-221). -/
def afterLoopT (isInt : Bool) (idat : ℕ) (rec : ℤ) (sdiff : Option ℤ) (tol : ℤ) : Except PyErr (Option ℕ × ℤ) :=
  if idat = 0 then
    match sdiff with
    | none => .error .unboundLocal
    | some s => if (s.natAbs : ℤ) > tol then saying isInt (.ok (none, rec)) else .ok (some idat, rec)
  else .ok (some idat, rec)

/-- The main loop with its message (`cycle_boundary.py` 173-212). -/
def mainLoopT (isInt : Bool) (c : Cycler) (dat : List ℤ) (tol : ℤ) (idat : ℕ) (rec : ℤ) (sdiff : Option ℤ) :
    Except PyErr (Option ℕ × ℤ) :=
  match hd : dat[idat]? with
  | none => afterLoopT isInt idat rec sdiff tol
  | some d =>
    if hr : rec < c.records then
      match ht : pyIdx c.times rec with
      | .error e => .error e
      | .ok tr =>
        let s := tr - d
        if s < -tol then
          match hn : c.next rec with
          | .error e => .error e
          | .ok r' => mainLoopT isInt c dat tol idat r' (some s)
        else if s > tol then saying isInt (mainLoopT isInt c dat tol (idat + 1) rec (some s))
        else
          match closest c d rec s with
          | .error e => .error e
          | .ok r' => .ok (some idat, r')
    else afterLoopT isInt idat rec sdiff tol
termination_by (dat.length - idat) + (c.records - rec).toNat
decreasing_by
  · have h0 : c.times ≠ [] := by
      intro h
      rw [h] at ht
      unfold pyIdx pyGet at ht
      split at ht
      · rename_i h'; simp at h'
      · simp at ht
    have := c.next_gt _ _ h0 hr hn
    unfold Cycler.records at *
    omega
  · have : idat < dat.length := (List.getElem?_eq_some_iff.1 hd).1
    omega

/-- `match_data_ocb` (`cycle_boundary.py` 68-221) with the messages that show the tolerance; the tolerance is a whole
number of microseconds, of type `int` (seconds) or `float`. -/
def matchDataT (isInt : Bool) (c : Cycler) (rec : ℤ) (dat : List ℤ) (idat : ℕ) (tol : ℤ) : Except PyErr (Option ℕ × ℤ) :=
  if dat.length ≤ idat then .ok (some idat, rec)
  else if c.records ≤ rec then .ok (some idat, rec)
  else if rec < 0 then
    match c.next rec with
    | .error e => .error e
    | .ok r' =>
      if c.records ≤ r' then .ok (some idat, r')
      else
        match pyIdx c.times r' with
        | .error e => .error e
        | .ok tr =>
          match skipLoop dat (tr - tol) idat with
          | none => .ok (none, r')
          | some i =>
            if dat[i]? = some tr then .ok (some i, r') else mainLoopT isInt c dat tol i r' none
  else
    match pyIdx c.times rec with
    | .error e => .error e
    | .ok tr => if dat[idat]? = some tr then .ok (some idat, rec) else mainLoopT isInt c dat tol idat rec none

theorem afterLoopT_sub {b : Bool} {i : ℕ} {rec : ℤ} {sd : Option ℤ} {tol : ℤ} {x : Option ℕ × ℤ}
    (h : afterLoopT b i rec sd tol = .ok x) : afterLoop i rec sd tol = .ok x := by
  unfold afterLoopT saying at h
  unfold afterLoop
  repeat' split at h
  all_goals simp_all

/-- The main loop without the bookkeeping for its termination. -/
theorem mainLoopT_eq (b : Bool) (c : Cycler) (dat : List ℤ) (tol : ℤ) (idat : ℕ) (rec : ℤ) (sd : Option ℤ) :
    mainLoopT b c dat tol idat rec sd =
      match dat[idat]? with
      | none => afterLoopT b idat rec sd tol
      | some d =>
        if rec < c.records then
          match pyIdx c.times rec with
          | .error e => .error e
          | .ok tr =>
            if tr - d < -tol then
              match c.next rec with
              | .error e => .error e
              | .ok r' => mainLoopT b c dat tol idat r' (some (tr - d))
            else if tr - d > tol then saying b (mainLoopT b c dat tol (idat + 1) rec (some (tr - d)))
            else
              match closest c d rec (tr - d) with
              | .error e => .error e
              | .ok r' => .ok (some idat, r')
        else afterLoopT b idat rec sd tol := by
  rw [mainLoopT]
  split
  · rename_i h; rw [h]
  · rename_i d h
    rw [h]
    simp only
    split
    · split
      · rename_i ht; rw [ht]
      · rename_i tr ht
        rw [ht]
        simp only
        split
        · split
          · rename_i hn; rw [hn]
          · rename_i hn; rw [hn]
        · rfl
    · rfl

theorem mainLoopT_sub {b : Bool} {c : Cycler} {dat : List ℤ} {tol : ℤ} {idat : ℕ} {rec : ℤ} {sd : Option ℤ}
    {x : Option ℕ × ℤ} (h : mainLoopT b c dat tol idat rec sd = .ok x) : mainLoop c dat tol idat rec sd = .ok x := by
  fun_induction mainLoop c dat tol idat rec sd with
  | case1 idat rec sd hd =>
    rw [mainLoopT_eq, hd] at h
    exact afterLoopT_sub h
  | case2 => rw [mainLoopT_eq] at h; simp_all
  | case3 idat rec sd d hd hr tr ht s hs e hn =>
    change tr - d < -tol at hs
    rw [mainLoopT_eq] at h; simp_all
  | case4 idat rec sd d hd hr tr ht s hs r' hn ih =>
    change tr - d < -tol at hs
    rw [mainLoopT_eq] at h
    exact ih (by simpa [hd, hr, ht, hs, hn] using h)
  | case5 idat rec sd d hd hr tr ht s hs hs' ih =>
    change ¬ (tr - d < -tol) at hs
    change tr - d > tol at hs'
    rw [mainLoopT_eq, hd] at h
    simp only [hr, ht, hs, hs', if_true, if_false] at h
    cases b
    · simp [saying] at h
    · exact ih h
  | case6 idat rec sd d hd hr tr ht s hs hs' e hn =>
    change ¬ (tr - d < -tol) at hs
    change ¬ (tr - d > tol) at hs'
    change closest c d rec (tr - d) = _ at hn
    rw [mainLoopT_eq, hd] at h
    simp only [hr, ht, hs, hs', hn, if_true, if_false] at h
    cases h
  | case7 idat rec sd d hd hr tr ht s hs hs' r' hn =>
    change ¬ (tr - d < -tol) at hs
    change ¬ (tr - d > tol) at hs'
    change closest c d rec (tr - d) = _ at hn
    rw [mainLoopT_eq, hd] at h
    simp only [hr, ht, hs, hs', hn, if_true, if_false] at h
    exact h
  | case8 idat rec sd d hd hr =>
    rw [mainLoopT_eq, hd] at h
    simp only [hr, if_false] at h
    exact afterLoopT_sub h

theorem matchDataT_sub {b : Bool} {c : Cycler} {dat : List ℤ} {tol : ℤ} {idat : ℕ} {rec : ℤ}
    {x : Option ℕ × ℤ} (h : matchDataT b c rec dat idat tol = .ok x) : matchData c rec dat idat tol = .ok x := by
  unfold matchDataT at h
  unfold matchData
  by_cases h1 : dat.length ≤ idat
  · rw [if_pos h1] at h ⊢
    exact h
  rw [if_neg h1] at h ⊢
  by_cases h2 : c.records ≤ rec
  · rw [if_pos h2] at h ⊢
    exact h
  rw [if_neg h2] at h ⊢
  by_cases h3 : rec < 0
  · rw [if_pos h3] at h ⊢
    cases hn : c.next rec with
    | error e => rw [hn] at h; cases h
    | ok r' =>
      rw [hn] at h
      simp only at h ⊢
      by_cases h4 : c.records ≤ r'
      · rw [if_pos h4] at h ⊢
        exact h
      rw [if_neg h4] at h ⊢
      cases ht : pyIdx c.times r' with
      | error e => rw [ht] at h; cases h
      | ok tr =>
        rw [ht] at h
        simp only at h ⊢
        cases hs : skipLoop dat (tr - tol) idat with
        | none => rw [hs] at h; exact h
        | some i =>
          rw [hs] at h
          simp only at h ⊢
          by_cases h5 : dat[i]? = some tr
          · rw [if_pos h5] at h ⊢
            exact h
          · rw [if_neg h5] at h ⊢
            exact mainLoopT_sub h
  · rw [if_neg h3] at h ⊢
    cases ht : pyIdx c.times rec with
    | error e => rw [ht] at h; cases h
    | ok tr =>
      rw [ht] at h
      simp only at h ⊢
      by_cases h5 : dat[idat]? = some tr
      · rw [if_pos h5] at h ⊢
        exact h
      · rw [if_neg h5] at h ⊢
        exact mainLoopT_sub h

/-- The loop of `vort2ascii_ocb` (`instruments/vort.py` 160-205) with such a tolerance, see `drive`. -/
def driveT (isInt : Bool) (c : Cycler) (dat : List ℤ) (tol : ℤ) (idat : ℕ) (rec : ℤ) : Except PyErr (List (ℕ × ℤ)) :=
  if idat < dat.length ∧ rec < c.records then
    match h : matchDataT isInt c rec dat idat tol with
    | .error e => .error e
    | .ok (none, _) => .error .typeError
    | .ok (some i, r') =>
      if i < dat.length ∧ r' < c.records then
        match driveT isInt c dat tol (i + 1) r' with
        | .error e => .error e
        | .ok l => .ok ((i, r') :: l)
      else .ok []
  else .ok []
termination_by dat.length - idat
decreasing_by
  have := matchData_ge _ _ _ _ _ _ _ (matchDataT_sub h)
  omega

end Ocb.Cycle
