import Verif.Model.FloatTol
import Verif.Props.Cycle

/-!
# C171: the type of the tolerance
-/

set_option autoImplicit false

namespace Ocb.Cycle

/-! ## Comparison of the two versions -/

theorem afterLoopT_here {i : ℕ} {rec : ℤ} {sd : Option ℤ} {tol : ℤ} {x : Option ℕ × ℤ}
    (h : afterLoopT false i rec sd tol = .ok x) : x.1 = some i := by
  unfold afterLoopT saying at h
  split at h
  · split at h
    · cases h
    · split at h
      · simp at h
      · cases h; rfl
  · cases h; rfl

theorem mainLoopT_here {c : Cycler} {dat : List ℤ} {tol : ℤ} {idat : ℕ} {rec : ℤ} {sd : Option ℤ} {x : Option ℕ × ℤ}
    (h : mainLoopT false c dat tol idat rec sd = .ok x) : x.1 = some idat := by
  fun_induction mainLoopT false c dat tol idat rec sd with
  | case1 => exact afterLoopT_here h
  | case2 => cases h
  | case3 => cases h
  | case4 _ _ _ _ _ _ _ _ _ _ _ _ ih => exact ih h
  | case5 => simp [saying] at h
  | case6 => cases h
  | case7 => cases h; rfl
  | case8 => exact afterLoopT_here h

theorem mainLoop_none_zero {c : Cycler} {dat : List ℤ} {tol : ℤ} {idat : ℕ} {rec : ℤ} {sd : Option ℤ} {i : ℕ} {r : ℤ}
    {b : Bool} (h : mainLoop c dat tol idat rec sd = .ok (some i, r)) (hi : i = idat) :
    mainLoopT b c dat tol idat rec sd = .ok (some i, r) := by
  have hafter : ∀ j q sd', afterLoop j q sd' tol = .ok (some i, r) → afterLoopT b j q sd' tol = .ok (some i, r) := by
    intro j q sd' h
    unfold afterLoop at h
    unfold afterLoopT
    split at h
    · rename_i hj
      rw [if_pos hj]
      cases sd' with
      | none => cases h
      | some s =>
        simp only at h ⊢
        split at h
        · simp at h
        · rename_i hs
          rw [if_neg hs]
          exact h
    · rename_i hj
      rw [if_neg hj]
      exact h
  fun_induction mainLoop c dat tol idat rec sd with
  | case1 idat rec sd hd =>
    rw [mainLoopT_eq, hd]
    exact hafter _ _ _ h
  | case2 => cases h
  | case3 => cases h
  | case4 idat rec sd d hd hr tr ht s hs r' hn ih =>
    change tr - d < -tol at hs
    rw [mainLoopT_eq, hd]
    simp only [hr, ht, hs, hn, if_true]
    exact ih h hi
  | case5 idat rec sd d hd hr tr ht s hs hs' ih =>
    have := mainLoop_ge _ _ _ _ _ _ _ _ h
    omega
  | case6 => cases h
  | case7 idat rec sd d hd hr tr ht s hs hs' r' hn =>
    change ¬ (tr - d < -tol) at hs
    change ¬ (tr - d > tol) at hs'
    change closest c d rec (tr - d) = _ at hn
    rw [mainLoopT_eq, hd]
    simp only [hr, ht, hs, hs', hn, if_true, if_false]
    exact h
  | case8 idat rec sd d hd hr =>
    rw [mainLoopT_eq, hd]
    simp only [hr, if_false]
    exact hafter _ _ _ h

theorem mainLoopT_error {b : Bool} {c : Cycler} {dat : List ℤ} {tol : ℤ} {idat : ℕ} {rec : ℤ} {sd : Option ℤ} {e : PyErr}
    (h : mainLoopT b c dat tol idat rec sd = .error e) : e = .valueError ∨ mainLoop c dat tol idat rec sd = .error e := by
  have hafter : ∀ j q sd', afterLoopT b j q sd' tol = .error e → e = .valueError ∨ afterLoop j q sd' tol = .error e := by
    intro j q sd' h
    unfold afterLoopT saying at h
    unfold afterLoop
    split at h
    · rename_i hj
      rw [if_pos hj]
      cases sd' with
      | none => exact .inr h
      | some s =>
        simp only at h ⊢
        split at h
        · split at h
          · cases h
          · cases h; exact .inl rfl
        · cases h
    · cases h
  fun_induction mainLoop c dat tol idat rec sd with
  | case1 idat rec sd hd =>
    rw [mainLoopT_eq, hd] at h
    exact hafter _ _ _ h
  | case2 idat rec sd d hd hr e' ht =>
    rw [mainLoopT_eq, hd] at h
    simp only [hr, ht, if_true] at h
    exact .inr h
  | case3 idat rec sd d hd hr tr ht s hs e' hn =>
    change tr - d < -tol at hs
    rw [mainLoopT_eq, hd] at h
    simp only [hr, ht, hs, hn, if_true] at h
    exact .inr h
  | case4 idat rec sd d hd hr tr ht s hs r' hn ih =>
    change tr - d < -tol at hs
    rw [mainLoopT_eq, hd] at h
    simp only [hr, ht, hs, hn, if_true] at h
    exact ih h
  | case5 idat rec sd d hd hr tr ht s hs hs' ih =>
    change ¬ (tr - d < -tol) at hs
    change tr - d > tol at hs'
    rw [mainLoopT_eq, hd] at h
    simp only [hr, ht, hs, hs', if_true, if_false] at h
    cases b
    · cases h
      exact .inl rfl
    · exact ih h
  | case6 idat rec sd d hd hr tr ht s hs hs' e' hn =>
    change ¬ (tr - d < -tol) at hs
    change ¬ (tr - d > tol) at hs'
    change closest c d rec (tr - d) = _ at hn
    rw [mainLoopT_eq, hd] at h
    simp only [hr, ht, hs, hs', hn, if_true, if_false] at h
    exact .inr h
  | case7 idat rec sd d hd hr tr ht s hs hs' r' hn =>
    change ¬ (tr - d < -tol) at hs
    change ¬ (tr - d > tol) at hs'
    change closest c d rec (tr - d) = _ at hn
    rw [mainLoopT_eq, hd] at h
    simp only [hr, ht, hs, hs', hn, if_true, if_false] at h
    cases h
  | case8 idat rec sd d hd hr =>
    rw [mainLoopT_eq, hd] at h
    simp only [hr, if_false] at h
    exact hafter _ _ _ h

theorem matchDataT_error {b : Bool} {c : Cycler} {dat : List ℤ} {tol : ℤ} {idat : ℕ} {rec : ℤ} {e : PyErr}
    (h : matchDataT b c rec dat idat tol = .error e) : e = .valueError ∨ matchData c rec dat idat tol = .error e := by
  unfold matchDataT at h
  unfold matchData
  by_cases h1 : dat.length ≤ idat
  · rw [if_pos h1] at h; cases h
  rw [if_neg h1] at h ⊢
  by_cases h2 : c.records ≤ rec
  · rw [if_pos h2] at h; cases h
  rw [if_neg h2] at h ⊢
  by_cases h3 : rec < 0
  · rw [if_pos h3] at h ⊢
    cases hn : c.next rec with
    | error e => rw [hn] at h; exact .inr h
    | ok r' =>
      rw [hn] at h
      simp only at h ⊢
      by_cases h4 : c.records ≤ r'
      · rw [if_pos h4] at h; cases h
      rw [if_neg h4] at h ⊢
      cases ht : pyIdx c.times r' with
      | error e => rw [ht] at h; exact .inr h
      | ok tr =>
        rw [ht] at h
        simp only at h ⊢
        cases hs : skipLoop dat (tr - tol) idat with
        | none => rw [hs] at h; cases h
        | some i =>
          rw [hs] at h
          simp only at h ⊢
          by_cases h5 : dat[i]? = some tr
          · rw [if_pos h5] at h; cases h
          · rw [if_neg h5] at h ⊢
            exact mainLoopT_error h
  · rw [if_neg h3] at h ⊢
    cases ht : pyIdx c.times rec with
    | error e => rw [ht] at h; exact .inr h
    | ok tr =>
      rw [ht] at h
      simp only at h ⊢
      by_cases h5 : dat[idat]? = some tr
      · rw [if_pos h5] at h; cases h
      · rw [if_neg h5] at h ⊢
        exact mainLoopT_error h

/-- With an `int` the messages do nothing: the model of `Cycle`. -/
theorem matchDataT_int (c : Cycler) (rec : ℤ) (dat : List ℤ) (idat : ℕ) (tol : ℤ) :
    matchDataT true c rec dat idat tol = matchData c rec dat idat tol := by
  have hm : ∀ (i : ℕ) (r : ℤ) (sd : Option ℤ), mainLoopT true c dat tol i r sd = mainLoop c dat tol i r sd := by
    intro i r sd
    have ha : ∀ j q sd', afterLoopT true j q sd' tol = afterLoop j q sd' tol := fun _ _ _ => rfl
    fun_induction mainLoop c dat tol i r sd with
    | case1 idat rec sd hd => rw [mainLoopT_eq, hd]; rfl
    | case2 idat rec sd d hd hr e ht =>
      rw [mainLoopT_eq, hd]; simp only [hr, ht, if_true]
    | case3 idat rec sd d hd hr tr ht s hs e hn =>
      change tr - d < -tol at hs
      rw [mainLoopT_eq, hd]; simp only [hr, ht, hs, hn, if_true]
    | case4 idat rec sd d hd hr tr ht s hs r' hn ih =>
      change tr - d < -tol at hs
      rw [mainLoopT_eq, hd]; simp only [hr, ht, hs, hn, if_true]; exact ih
    | case5 idat rec sd d hd hr tr ht s hs hs' ih =>
      change ¬ (tr - d < -tol) at hs
      change tr - d > tol at hs'
      rw [mainLoopT_eq, hd]; simp only [hr, ht, hs, hs', if_true, if_false]; exact ih
    | case6 idat rec sd d hd hr tr ht s hs hs' e hn =>
      change ¬ (tr - d < -tol) at hs
      change ¬ (tr - d > tol) at hs'
      change closest c d rec (tr - d) = _ at hn
      rw [mainLoopT_eq, hd]; simp only [hr, ht, hs, hs', hn, if_true, if_false]
    | case7 idat rec sd d hd hr tr ht s hs hs' r' hn =>
      change ¬ (tr - d < -tol) at hs
      change ¬ (tr - d > tol) at hs'
      change closest c d rec (tr - d) = _ at hn
      rw [mainLoopT_eq, hd]; simp only [hr, ht, hs, hs', hn, if_true, if_false]
    | case8 idat rec sd d hd hr =>
      rw [mainLoopT_eq, hd]; simp only [hr, if_false]; rfl
  unfold matchDataT matchData
  simp only [hm]
  rfl

/-! ## C171 -/

/-- C171, for a cursor on a record: with a `float` the search returns what it returns with an `int`, provided that that is
the datum asked for; in all other cases it raises an exception. -/
theorem C171_found_partial (c : Cycler) (rec : ℤ) (h0 : 0 ≤ rec) (dat : List ℤ) (idat : ℕ) (tol : ℤ) (x : Option ℕ × ℤ) :
    matchDataT false c rec dat idat tol = .ok x ↔ matchData c rec dat idat tol = .ok x ∧ x.1 = some idat := by
  constructor
  · intro h
    refine ⟨matchDataT_sub h, ?_⟩
    unfold matchDataT at h
    split at h
    · cases h; rfl
    split at h
    · cases h; rfl
    rw [if_neg (by omega)] at h
    split at h
    · cases h
    · split at h
      · cases h; rfl
      · exact mainLoopT_here h
  · rintro ⟨h, hx⟩
    obtain ⟨o, r⟩ := x
    simp only at hx
    subst hx
    unfold matchData at h
    unfold matchDataT
    by_cases h1 : dat.length ≤ idat
    · rw [if_pos h1] at h ⊢; exact h
    rw [if_neg h1] at h ⊢
    by_cases h2 : c.records ≤ rec
    · rw [if_pos h2] at h ⊢; exact h
    rw [if_neg h2] at h ⊢
    rw [if_neg (by omega)] at h ⊢
    cases ht : pyIdx c.times rec with
    | error e => rw [ht] at h; cases h
    | ok tr =>
      rw [ht] at h
      simp only at h ⊢
      by_cases h5 : dat[idat]? = some tr
      · rw [if_pos h5] at h ⊢; exact h
      · rw [if_neg h5] at h ⊢
        exact mainLoop_none_zero h rfl

/-- C171, for a cursor before the records: data long before the first record are passed over without a message; then the
same holds for the first datum `i` that is not. -/
theorem C171_first_partial (c : Cycler) (rec : ℤ) (h0 : rec < 0) (dat : List ℤ) (idat i : ℕ) (tol r' tr d : ℤ)
    (hn : c.next rec = .ok r') (ht : At c.times r' tr) (hle : idat ≤ i) (hd : dat[i]? = some d) (hge : tr - tol ≤ d)
    (hbefore : ∀ j y, idat ≤ j → j < i → dat[j]? = some y → y < tr - tol) (x : Option ℕ × ℤ) :
    matchDataT false c rec dat idat tol = .ok x ↔ matchData c rec dat idat tol = .ok x ∧ x.1 = some i := by
  have hi : i < dat.length := (List.getElem?_eq_some_iff.1 hd).1
  obtain ⟨t0, t1, t2⟩ := at_eq ht
  have hs : skipLoop dat (tr - tol) idat = some i := by
    have hsp := skipLoop_spec dat (tr - tol) idat
    cases hc : skipLoop dat (tr - tol) idat with
    | none =>
      have := hsp.2 hc i hle hi
      rw [tm_some hd] at this
      omega
    | some j =>
      obtain ⟨a1, a2, a3, a4⟩ := hsp.1 j hc
      rcases lt_trichotomy j i with h | h | h
      · have := hbefore j _ a1 h (get_tm a2)
        omega
      · rw [h]
      · have := a4 i hle h
        rw [tm_some hd] at this
        omega
  have hp : pyIdx c.times r' = .ok tr := by rw [t2]; exact tm_idx t0 t1
  unfold matchDataT matchData
  have hz : c.records = c.times.length := rfl
  rw [if_neg (show ¬ dat.length ≤ idat by omega), if_neg (show ¬ dat.length ≤ idat by omega),
    if_neg (show ¬ c.records ≤ rec by omega), if_neg (show ¬ c.records ≤ rec by omega), if_pos h0, if_pos h0, hn]
  simp only
  rw [if_neg (show ¬ c.records ≤ r' by omega), if_neg (show ¬ c.records ≤ r' by omega), hp]
  simp only [hs]
  by_cases h5 : dat[i]? = some tr
  · rw [if_pos h5, if_pos h5]
    constructor
    · intro h
      refine ⟨h, ?_⟩
      cases h; rfl
    · exact fun h => h.1
  · rw [if_neg h5, if_neg h5]
    constructor
    · intro h
      exact ⟨mainLoopT_sub h, mainLoopT_here h⟩
    · rintro ⟨h, hx⟩
      obtain ⟨o, q⟩ := x
      simp only at hx
      subst hx
      exact mainLoop_none_zero h rfl

/-- C171, refuted: a datum earlier than the record at the cursor by more than the tolerance makes the search fail with a
`ValueError` when the tolerance is a `float`, with an `int` it ends normally. -/
theorem C171_gap_refuted {c : Cycler} {good : ℤ → Prop} (hb : IsBoundary c good) (rec tr : ℤ) (ht : At c.times rec tr)
    (dat : List ℤ) (idat : ℕ) (d : ℤ) (hd : dat[idat]? = some d) (tol : ℤ) (htol : 0 ≤ tol) (hgap : tol < tr - d) :
    matchDataT false c rec dat idat tol = .error .valueError ∧ ∃ x, matchData c rec dat idat tol = .ok x := by
  obtain ⟨t0, t1, t2⟩ := at_eq ht
  have hp : pyIdx c.times rec = .ok tr := by rw [t2]; exact tm_idx t0 t1
  have hi : idat < dat.length := (List.getElem?_eq_some_iff.1 hd).1
  obtain ⟨o, r', h, -⟩ := C15_match_total_monotone hb rec dat idat tol (by omega) htol
  refine ⟨?_, _, h⟩
  unfold matchDataT
  rw [if_neg (by omega), if_neg (by unfold Cycler.records; omega), if_neg (by omega), hp]
  simp only
  rw [if_neg (by rw [hd]; simp; omega), mainLoopT_eq, hd]
  simp only
  rw [if_pos (by unfold Cycler.records; omega), hp]
  simp only
  rw [if_neg (by omega), if_pos (by omega)]
  rfl

theorem driveT_error {b : Bool} {c : Cycler} {dat : List ℤ} {tol : ℤ} {idat : ℕ} {rec : ℤ} {e : PyErr}
    (h : driveT b c dat tol idat rec = .error e) : e = .valueError ∨ drive c dat tol idat rec = .error e := by
  fun_induction driveT b c dat tol idat rec with
  | case1 idat rec hlt e' hm =>
    cases h
    rcases matchDataT_error hm with h | h
    · exact .inl h
    · right
      rw [drive, if_pos hlt]
      split
      · rename_i h'; rw [h] at h'; cases h'; rfl
      · rename_i h'; rw [h] at h'; cases h'
      · rename_i h'; rw [h] at h'; cases h'
  | case2 idat rec hlt r' hm =>
    cases h
    right
    have h := matchDataT_sub hm
    rw [drive, if_pos hlt]
    split
    · rename_i h'; rw [h] at h'; cases h'
    · rfl
    · rename_i h'; rw [h] at h'; cases h'
  | case3 idat rec hlt i r' hm hir e' he ih =>
    cases h
    rcases ih he with h' | h'
    · exact .inl h'
    · right
      have h := matchDataT_sub hm
      rw [drive, if_pos hlt]
      split
      · rename_i h''; rw [h] at h''; cases h''
      · rename_i h''; rw [h] at h''; cases h''
      · rename_i h''
        rw [h] at h''
        cases h''
        rw [if_pos hir, h']
  | case4 => cases h
  | case5 => cases h
  | case6 => cases h

/-- The data that the driver loop handles with a `float`: consecutive ones. -/
theorem driveT_consecutive {c : Cycler} {good : ℤ → Prop} (hb : IsBoundary c good) {dat : List ℤ} {tol : ℤ} (htol : 0 ≤ tol)
    {idat : ℕ} {rec : ℤ} (h0 : 0 ≤ rec) {l : List (ℕ × ℤ)} (h : driveT false c dat tol idat rec = .ok l) :
    drive c dat tol idat rec = .ok l ∧ ∀ n p, l[n]? = some p → p.1 = idat + n := by
  fun_induction driveT false c dat tol idat rec generalizing l with
  | case1 => cases h
  | case2 => cases h
  | case3 => cases h
  | case4 idat rec hlt i r' hm hir l' hl' ih =>
    cases h
    have hs := matchDataT_sub hm
    obtain ⟨o, q, hq, hq', -⟩ := C15_match_total_monotone hb rec dat idat tol (by omega) htol
    rw [hs] at hq
    cases hq
    obtain ⟨i1, i2⟩ := ih (by omega) hl'
    have hi := ((C171_found_partial c rec h0 dat idat tol _).1 hm).2
    simp only [Option.some.injEq] at hi
    constructor
    · rw [drive, if_pos hlt]
      split
      · rename_i h''; rw [hs] at h''; cases h''
      · rename_i h''; rw [hs] at h''; cases h''
      · rename_i h''
        rw [hs] at h''
        cases h''
        rw [if_pos hir, i1]
    · intro n p hp
      cases n with
      | zero => cases hp; exact hi
      | succ n => have := i2 n p hp; omega
  | case5 idat rec hlt i r' hm hir =>
    cases h
    have hs := matchDataT_sub hm
    refine ⟨?_, fun n p hp => by simp at hp⟩
    rw [drive, if_pos hlt]
    split
    · rename_i h''; rw [hs] at h''; cases h''
    · rename_i h''; rw [hs] at h''; cases h''
    · rename_i h''
      rw [hs] at h''
      cases h''
      rw [if_neg hir]
  | case6 idat rec hlt =>
    cases h
    refine ⟨?_, fun n p hp => by simp at hp⟩
    rw [drive, if_neg hlt]

/-- C171, refuted for the conversion of a file: if with an `int` any datum is passed over, with a `float` of the same value
the conversion fails with a `ValueError`. -/
theorem C171_convert_refuted {c : Cycler} {good : ℤ → Prop} (hb : IsBoundary c good) (dat : List ℤ) (tol : ℤ) (htol : 0 ≤ tol)
    (rec : ℤ) (h0 : 0 ≤ rec) (l : List (ℕ × ℤ)) (h : drive c dat tol 0 rec = .ok l) (n : ℕ) (p : ℕ × ℤ)
    (hp : l[n]? = some p) (hn : p.1 ≠ n) : driveT false c dat tol 0 rec = .error .valueError := by
  cases hT : driveT false c dat tol 0 rec with
  | ok l' =>
    obtain ⟨h1, h2⟩ := driveT_consecutive hb htol h0 hT
    rw [h] at h1
    cases h1
    have := h2 n p hp
    omega
  | error e =>
    rcases driveT_error hT with rfl | h'
    · rfl
    · rw [h] at h'
      cases h'

/-- Three data, the first two earlier than the first record by more than the tolerance: all hypotheses are met (times in
microseconds). -/
example : IsBoundary (dualCycler [600, 900]) (fun _ => True) ∧
    drive (dualCycler [600, 900]) [0, 300, 900] 100 0 0 = .ok [(2, 1)] ∧
    At (dualCycler [600, 900]).times 0 600 ∧ ([0, 300, 900] : List ℤ)[0]? = some 0 :=
  ⟨.dual _ (by simp), by decide +kernel, ⟨le_rfl, rfl⟩, rfl⟩

/-- A datum passed over without a message before the first record, and one found. -/
example : matchDataT false (dualCycler [600]) (-1) [0, 601] 0 100 = .ok (some 1, 0) := by decide +kernel

end Ocb.Cycle
