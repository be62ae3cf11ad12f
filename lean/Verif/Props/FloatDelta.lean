import Verif.Model.FloatDelta
import Verif.Props.FloatTol
import Verif.Props.Pairs

/-!
# C175: `DualBoundary` with a largest time difference that is not an integer
-/

set_option autoImplicit false

namespace Ocb.Cycle

/-- One round of the pairing loop. -/
theorem pairLoop_eq' (eab : Bnd) (mn mx : Option (Fl ℚ)) (kw : List Criterion) (dat : List ℤ) (tol : ℤ) (iocb : ℕ) (rec : ℤ) :
    pairLoop eab mn mx kw dat tol iocb rec =
      if rec < eab.records then
        match matchData (eab.cycler mn mx kw) rec dat iocb tol with
        | .error e => .error e
        | .ok (none, r') =>
          if r' < eab.records then
            match getNext eab mn mx kw r' with
            | .error e => .error e
            | .ok _ => .ok []
          else .ok []
        | .ok (some i, r') =>
          if i < dat.length ∧ r' < eab.records then
            match getNext eab mn mx kw r' with
            | .error e => .error e
            | .ok r'' =>
              match pairLoop eab mn mx kw dat tol i r'' with
              | .error e => .error e
              | .ok l => .ok ((i, r') :: l)
          else if r' < eab.records then
            match getNext eab mn mx kw r' with
            | .error e => .error e
            | .ok _ => .ok []
          else .ok []
      else .ok [] := by
  rw [pairLoop]
  split
  · rename_i hr
    split
    · rename_i hm; rw [hm]
    · rename_i hm; rw [hm]; rfl
    · rename_i i r' hm
      rw [hm]
      simp only
      split
      · split
        · rename_i hn; rw [hn]
        · rename_i hn; rw [hn]; rfl
      · rfl
  · rfl

/-- With a `float` the loop finds what it finds with an `int`, or fails. -/
theorem pairLoopT_sub {b : Bool} {eab : Bnd} {mn mx : Option (Fl ℚ)} {kw : List Criterion} {dat : List ℤ} {tol : ℤ} {iocb : ℕ}
    {rec : ℤ} {l : List (ℕ × ℤ)} (h : pairLoopT b eab mn mx kw dat tol iocb rec = .ok l) :
    pairLoop eab mn mx kw dat tol iocb rec = .ok l := by
  fun_induction pairLoopT b eab mn mx kw dat tol iocb rec generalizing l with
  | case1 => cases h
  | case2 => cases h
  | case3 iocb rec hr r' hm hlt x hn => rw [pairLoop_eq', if_pos hr, matchDataT_sub hm]; simp only [hlt, if_true, hn]; exact h
  | case4 iocb rec hr r' hm hlt => rw [pairLoop_eq', if_pos hr, matchDataT_sub hm]; simp only [hlt, if_false]; exact h
  | case5 => cases h
  | case6 => cases h
  | case7 iocb rec hr i r' hm hlt r'' hn l' hl ih =>
    rw [pairLoop_eq', if_pos hr, matchDataT_sub hm]
    simp only [hlt, if_true, hn, ih hl, and_self]
    exact h
  | case8 => cases h
  | case9 iocb rec hr i r' hm hlt hr' x hn =>
    rw [pairLoop_eq', if_pos hr, matchDataT_sub hm]
    dsimp only; rw [if_neg hlt]; simp only [hr', if_true, hn]
    exact h
  | case10 iocb rec hr i r' hm hlt hr' =>
    rw [pairLoop_eq', if_pos hr, matchDataT_sub hm]
    dsimp only; rw [if_neg hlt]; simp only [hr', if_false]
    exact h
  | case11 iocb rec hr => rw [pairLoop_eq', if_neg hr]; exact h

theorem pairLoopT_error {b : Bool} {eab : Bnd} {mn mx : Option (Fl ℚ)} {kw : List Criterion} {dat : List ℤ} {tol : ℤ}
    {iocb : ℕ} {rec : ℤ} {e : PyErr} (h : pairLoopT b eab mn mx kw dat tol iocb rec = .error e) :
    e = .valueError ∨ pairLoop eab mn mx kw dat tol iocb rec = .error e := by
  fun_induction pairLoopT b eab mn mx kw dat tol iocb rec with
  | case1 iocb rec hr e' hm =>
    cases h
    rcases matchDataT_error hm with h | h
    · exact .inl h
    · right; rw [pairLoop_eq', if_pos hr, h]
  | case2 iocb rec hr r' hm hlt e' hn =>
    right; rw [pairLoop_eq', if_pos hr, matchDataT_sub hm]; simp only [hlt, if_true, hn]; exact h
  | case3 => cases h
  | case4 => cases h
  | case5 iocb rec hr i r' hm hlt e' hn =>
    right; rw [pairLoop_eq', if_pos hr, matchDataT_sub hm]; simp only [hlt, if_true, hn, and_self]; exact h
  | case6 iocb rec hr i r' hm hlt r'' hn e' hl ih =>
    cases h
    rcases ih hl with h | h
    · exact .inl h
    · right; rw [pairLoop_eq', if_pos hr, matchDataT_sub hm]; simp only [hlt, if_true, hn, h, and_self]
  | case7 => cases h
  | case8 iocb rec hr i r' hm hlt hr' e' hn =>
    right; rw [pairLoop_eq', if_pos hr, matchDataT_sub hm]; dsimp only; rw [if_neg hlt]; simp only [hr', if_true, hn]; exact h
  | case9 => cases h
  | case10 => cases h
  | case11 => cases h

theorem pairLoopT_int (eab : Bnd) (mn mx : Option (Fl ℚ)) (kw : List Criterion) (dat : List ℤ) (tol : ℤ) (iocb : ℕ) (rec : ℤ) :
    pairLoopT true eab mn mx kw dat tol iocb rec = pairLoop eab mn mx kw dat tol iocb rec := by
  fun_induction pairLoopT true eab mn mx kw dat tol iocb rec with
  | case1 iocb rec hr e' hm => rw [matchDataT_int] at hm; rw [pairLoop_eq', if_pos hr, hm]
  | case2 iocb rec hr r' hm hlt e' hn =>
    rw [pairLoop_eq', if_pos hr, matchDataT_sub hm]; simp only [hlt, if_true, hn]
  | case3 iocb rec hr r' hm hlt x hn => rw [pairLoop_eq', if_pos hr, matchDataT_sub hm]; simp only [hlt, if_true, hn]
  | case4 iocb rec hr r' hm hlt => rw [pairLoop_eq', if_pos hr, matchDataT_sub hm]; simp only [hlt, if_false]
  | case5 iocb rec hr i r' hm hlt e' hn =>
    rw [pairLoop_eq', if_pos hr, matchDataT_sub hm]; simp only [hlt, if_true, hn, and_self]
  | case6 iocb rec hr i r' hm hlt r'' hn e' hl ih =>
    rw [pairLoop_eq', if_pos hr, matchDataT_sub hm]; simp only [hlt, if_true, hn, ← ih, hl, and_self]
  | case7 iocb rec hr i r' hm hlt r'' hn l' hl ih =>
    rw [pairLoop_eq', if_pos hr, matchDataT_sub hm]; simp only [hlt, if_true, hn, ← ih, hl, and_self]
  | case8 iocb rec hr i r' hm hlt hr' e' hn =>
    rw [pairLoop_eq', if_pos hr, matchDataT_sub hm]; dsimp only; rw [if_neg hlt]; simp only [hr', if_true, hn]
  | case9 iocb rec hr i r' hm hlt hr' x hn =>
    rw [pairLoop_eq', if_pos hr, matchDataT_sub hm]; dsimp only; rw [if_neg hlt]; simp only [hr', if_true, hn]
  | case10 iocb rec hr i r' hm hlt hr' =>
    rw [pairLoop_eq', if_pos hr, matchDataT_sub hm]; dsimp only; rw [if_neg hlt]; simp only [hr', if_false]
  | case11 iocb rec hr => rw [pairLoop_eq', if_neg hr]

/-- With the cursor on a record, a `float` leaves the position among the OCB records where it is. -/
theorem pairLoopT_stay {eab : Bnd} {mn mx : Option (Fl ℚ)} {kw : List Criterion} {dat : List ℤ} {tol : ℤ} {iocb : ℕ} {rec : ℤ}
    (h0 : 0 ≤ rec) {l : List (ℕ × ℤ)} (h : pairLoopT false eab mn mx kw dat tol iocb rec = .ok l) : ∀ p ∈ l, p.1 = iocb := by
  fun_induction pairLoopT false eab mn mx kw dat tol iocb rec generalizing l with
  | case1 => cases h
  | case2 => cases h
  | case3 => cases h; simp
  | case4 => cases h; simp
  | case5 => cases h
  | case6 => cases h
  | case7 iocb rec hr i r' hm hlt r'' hn l' hl ih =>
    cases h
    have hi := ((C171_found_partial _ _ h0 _ _ _ _).1 hm).2
    simp only [Option.some.injEq] at hi
    subst hi
    have h1 := matchData_rec_ge (bnd_next_gt eab mn mx kw) _ _ _ _ _ _ (matchDataT_sub hm)
    have h2 := bnd_next_gt eab mn mx kw _ _ hn
    intro p hp
    rcases List.mem_cons.1 hp with rfl | hp
    · rfl
    · exact ih (by omega) hl p hp
  | case8 => cases h
  | case9 => cases h; simp
  | case10 => cases h; simp
  | case11 => cases h; simp

theorem pairLoopT_one {eab : Bnd} {mn mx : Option (Fl ℚ)} {kw : List Criterion} {dat : List ℤ} {tol : ℤ} {iocb : ℕ}
    {l : List (ℕ × ℤ)} (h : pairLoopT false eab mn mx kw dat tol iocb (-1) = .ok l) : ∀ p ∈ l, ∀ q ∈ l, p.1 = q.1 := by
  have key : ∀ rec : ℤ, -1 ≤ rec → pairLoopT false eab mn mx kw dat tol iocb rec = .ok l → ∀ p ∈ l, ∀ q ∈ l, p.1 = q.1 := by
    intro rec hrec h
    fun_induction pairLoopT false eab mn mx kw dat tol iocb rec generalizing l with
    | case1 => cases h
    | case2 => cases h
    | case3 => cases h; simp
    | case4 => cases h; simp
    | case5 => cases h
    | case6 => cases h
    | case7 iocb rec hr i r' hm hlt r'' hn l' hl ih =>
      cases h
      have h1 := matchData_rec_ge (bnd_next_gt eab mn mx kw) _ _ _ _ _ _ (matchDataT_sub hm)
      have h2 := bnd_next_gt eab mn mx kw _ _ hn
      have h3 := pairLoopT_stay (by omega) hl
      have h4 : ∀ p ∈ (i, r') :: l', p.1 = i := by
        intro p hp
        rcases List.mem_cons.1 hp with rfl | hp
        · rfl
        · exact h3 p hp
      intro p hp q hq
      rw [h4 p hp, h4 q hq]
    | case8 => cases h
    | case9 => cases h; simp
    | case10 => cases h; simp
    | case11 => cases h; simp
  exact key _ le_rfl h

/-- The pairs depend on the result of the loop alone. -/
theorem setGood_cases {b : Bool} {ocb eab : Bnd} {so se : Sel} {tol : ℤ} :
    (∀ p, setGoodIndT b ocb eab so se tol = .ok p → setGoodInd ocb eab so se tol = .ok p) ∧
    (∀ e, setGoodIndT b ocb eab so se tol = .error e → e = .valueError ∨ setGoodInd ocb eab so se tol = .error e) := by
  unfold setGoodIndT setGoodInd
  cases retrieveAll ocb so.min so.max so.kw 0 with
  | error e => exact ⟨fun _ h => h, fun _ h => .inr h⟩
  | ok g =>
    obtain ⟨good, n⟩ := g
    dsimp only
    cases mapE (pyIdx ocb.dtime) good with
    | error e => exact ⟨fun _ h => h, fun _ h => .inr h⟩
    | ok times =>
      dsimp only
      cases hT : pairLoopT b eab se.min se.max se.kw times tol 0 (-1) with
      | error e =>
        refine ⟨fun _ h => (by cases h), fun e' h => ?_⟩
        cases h
        rcases pairLoopT_error hT with h | h
        · exact .inl h
        · right; rw [h]
      | ok l =>
        rw [pairLoopT_sub hT]
        exact ⟨fun _ h => h, fun _ h => .inr h⟩

/-- C175: an `int` gives the pairs of the other claims. -/
theorem C175_int (ocb eab : Bnd) (so se : Sel) (tol : ℤ) : setGoodIndT true ocb eab so se tol = setGoodInd ocb eab so se tol := by
  unfold setGoodIndT setGoodInd
  simp only [pairLoopT_int]
  rfl

/-- C175, as far as it holds: with a `float` the pairing gives the same pairs as with an `int` of the same value, or it raises
a `ValueError`.  Missing: that it does not raise, see `C175_float_refuted`. -/
theorem C175_same_partial (ocb eab : Bnd) (ho : ocb.WF) (he : eab.WF) (so se : Sel) (tol : ℤ) (htol : 0 ≤ tol) :
    setGoodIndT false ocb eab so se tol = setGoodInd ocb eab so se tol ∨
      setGoodIndT false ocb eab so se tol = .error .valueError := by
  obtain ⟨h1, h2⟩ := setGood_cases (b := false) (ocb := ocb) (eab := eab) (so := so) (se := se) (tol := tol)
  cases h : setGoodIndT false ocb eab so se tol with
  | ok p => exact .inl (h1 p h).symm
  | error e =>
    rcases h2 e h with rfl | h3
    · exact .inr rfl
    · obtain ⟨good, times, l, p, e0, -⟩ := setGoodInd_out ocb eab ho he so se tol htol
      rw [e0] at h3
      cases h3

/-- C175 is false: with a `float`, pairs of more than one OCB record cannot be made.  Where an `int` gives pairs with two
different OCB records, a `float` of the same value gives a `ValueError`. -/
theorem C175_float_refuted (ocb eab : Bnd) (ho : ocb.WF) (he : eab.WF) (so se : Sel) (tol : ℤ) (htol : 0 ≤ tol) (p : Pairs)
    (hp : setGoodInd ocb eab so se tol = .ok p) (a b : ℤ) (ha : a ∈ p.ocbInd) (hb : b ∈ p.ocbInd) (hab : a ≠ b) :
    setGoodIndT false ocb eab so se tol = .error .valueError := by
  rcases C175_same_partial ocb eab ho he so se tol htol with h | h
  · exfalso
    rw [hp] at h
    unfold setGoodIndT at h
    cases hg : retrieveAll ocb so.min so.max so.kw 0 with
    | error e => rw [hg] at h; cases h
    | ok g =>
      obtain ⟨good, n⟩ := g
      rw [hg] at h
      dsimp only at h
      cases ht : mapE (pyIdx ocb.dtime) good with
      | error e => rw [ht] at h; cases h
      | ok times =>
        rw [ht] at h
        dsimp only at h
        cases hT : pairLoopT false eab se.min se.max se.kw times tol 0 (-1) with
        | error e => rw [hT] at h; cases h
        | ok l =>
          rw [hT] at h
          dsimp only at h
          have h1 := pairLoopT_one hT
          cases hoi : mapE (fun p : ℕ × ℤ => pyIdx good (p.1 : ℤ)) l with
          | error e => rw [hoi] at h; cases h
          | ok oi =>
            rw [hoi] at h
            have hmem : ∀ x ∈ p.ocbInd, ∃ q ∈ l, pyIdx good (q.1 : ℤ) = .ok x := by
              have : p.ocbInd = oi := by
                cases hts : mapE (fun p : ℕ × ℤ => pyIdx times (p.1 : ℤ)) l with
                | error e => rw [hts] at h; cases h
                | ok ts => rw [hts] at h; cases h; rfl
              rw [this]
              intro x hx
              obtain ⟨k, hk⟩ := List.mem_iff_getElem?.1 hx
              obtain ⟨g1, g2⟩ := mapE_get hoi
              have hkl : k < l.length := g1 ▸ (List.getElem?_eq_some_iff.1 hk).1
              obtain ⟨y, y1, y2⟩ := g2 k l[k] (List.getElem?_eq_getElem hkl)
              rw [hk, Option.some.injEq] at y1
              exact ⟨l[k], List.getElem_mem hkl, y1 ▸ y2⟩
            obtain ⟨q, q1, q2⟩ := hmem a ha
            obtain ⟨r, r1, r2⟩ := hmem b hb
            rw [h1 q q1 r r1, r2] at q2
            cases q2
            exact hab rfl
  · exact h

/-- Two boundaries with the same two times. -/
def sameOcb : Bnd where
  dtime := [0, 100]
  fom := [.fin 3, .fin 4]
  attrs := []
  minFom := .ninf
  maxFom := .pinf

theorem sameOcb_wf : sameOcb.WF := ⟨rfl, by intro k v h; simp [Bnd.attr, sameOcb] at h⟩

/-- Two pairs with an `int`, a `ValueError` with a `float`. -/
example : setGoodInd sameOcb sameOcb ⟨none, none, []⟩ ⟨none, none, []⟩ 60 = .ok ⟨[0, 100], [0, 1], [0, 1]⟩ ∧
    setGoodIndT false sameOcb sameOcb ⟨none, none, []⟩ ⟨none, none, []⟩ 60 = .error .valueError := by
  have h : setGoodInd sameOcb sameOcb ⟨none, none, []⟩ ⟨none, none, []⟩ 60 = .ok ⟨[0, 100], [0, 1], [0, 1]⟩ := by
    decide +kernel
  exact ⟨h, C175_float_refuted _ _ sameOcb_wf sameOcb_wf _ _ _ (by decide) _ h 0 1 (by decide) (by decide) (by decide)⟩

end Ocb.Cycle
