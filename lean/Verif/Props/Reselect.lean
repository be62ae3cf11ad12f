import Verif.Lemmas.Reselect

/-!
# Properties C163 and C164: matching with a `DualBoundary` and selection criteria

`Sel.good s b k` (record `k` of `b` meets the criteria `s`), `At`, `Close` are defined in `Verif.Spec.Cycle` and
`Verif.Props.Pairs`.
-/

set_option autoImplicit false

namespace Ocb.Reselect

open Ocb.Cycle

/-- Records `o` and `e` make a pair under the criteria: both meet them, and the times are close enough. -/
def GoodPair (D : Obj) (s : Sel) (o e tO : ℤ) : Prop :=
  s.good D.ocb o ∧ s.good D.eab e ∧ At D.ocb.dtime o tO ∧ ∃ te, At D.eab.dtime e te ∧ |te - tO| ≤ D.maxDelta

/-- The records that the object shows: those of the pair at the cursor. -/
def Shown (E : Obj) (o e : ℤ) : Prop := 0 ≤ E.cur ∧ E.pairs.ocbInd[E.cur.toNat]? = some o ∧ E.pairs.eabInd[E.cur.toNat]? = some e

/-- Members and largest difference of a usable object. -/
def Usable (D : Obj) : Prop := D.ocb.WF ∧ D.eab.WF ∧ 0 ≤ D.maxDelta

/-- The pairs of the object are those of the criteria. -/
def PairsOf (D : Obj) (s : Sel) : Prop := setGoodInd D.ocb D.eab s s D.maxDelta = .ok D.pairs

theorem search_good (D : Obj) (hD : Usable D) (s : Sel) (hp : PairsOf D s) (dat : List ℤ) (idat : ℕ) (tol : ℤ) (htol : 0 ≤ tol)
    (h0 : -1 ≤ D.cur) (hpos : 0 < D.pairs.records) (i : ℕ) (E : Obj) (h : search D dat idat tol = .ok (some i, E)) (hi : i < dat.length)
    (hE : E.cur < E.pairs.records) :
    ∃ o e tO d, Shown E o e ∧ GoodPair D s o e tO ∧ dat[i]? = some d ∧ |tO - d| ≤ tol := by
  obtain ⟨ho, he, hm⟩ := hD
  obtain ⟨p, e0, l1, l2, l3⟩ := C19_pairs_valid D.ocb D.eab ho he s s D.maxDelta hm
  rw [hp] at e0
  cases e0
  unfold search at h
  split at h
  · cases h
  · rename_i j r hmd
    cases h
    have hE' : r < (D.pairs.dtime.length : ℤ) := hE
    have hne : D.pairs.dtime ≠ [] := by
      intro hc
      rw [Pairs.records, hc] at hpos
      simp at hpos
    obtain ⟨⟨d, t, hd, ⟨hr0, hrt⟩, hdt⟩, -⟩ := C14_match_within_tolerance (.dual _ hne) D.cur dat idat tol h0 htol i r hmd hi hE'
    rw [dual_times] at hrt
    have hlt := (List.getElem?_eq_some_iff.1 hrt).1
    have ho' : D.pairs.ocbInd[r.toNat]? = some D.pairs.ocbInd[r.toNat] := List.getElem?_eq_getElem (by omega)
    have he' : D.pairs.eabInd[r.toNat]? = some D.pairs.eabInd[r.toNat] := List.getElem?_eq_getElem (by omega)
    obtain ⟨g1, g2, tO, te, a1, a2, a3, a4⟩ := l3 _ _ _ ho' he'
    rw [hrt] at a4
    cases a4
    exact ⟨_, _, _, d, ⟨hr0, ho', he'⟩, ⟨g1, g2, a1, te, a2, a3⟩, hd, hdt⟩

/-- C163: for a call with criteria, the datum and the records shown afterwards belong together: both records meet the
criteria of the call, they are within `max_delta` of each other, and the OCB record is within the tolerance of the datum. -/
theorem C163_match_valid (D : Obj) (hD : Usable D) (s : Sel) (hs : given s = true) (dat : List ℤ) (idat : ℕ) (tol : ℤ)
    (htol : 0 ≤ tol) (hcur : D.cur < D.pairs.records) (i : ℕ) (E : Obj) (h : matchDual D s dat idat tol = .ok (some i, E))
    (hi : i < dat.length) (hE : E.cur < E.pairs.records) :
    ∃ o e tO d, Shown E o e ∧ GoodPair D s o e tO ∧ dat[i]? = some d ∧ |tO - d| ≤ tol := by
  unfold matchDual at h
  split at h
  · cases h; omega
  rw [if_neg (by omega)] at h
  simp only [hs, if_true] at h
  split at h
  · cases h
  · rename_i p hp
    split at h
    · cases h
      simp only at hE
      omega
    · exact search_good { D with pairs := p, cur := 0 } hD s hp dat idat tol htol (by simp) (by simp only; omega) i E h hi hE

/-- The criteria of a call that does not have any. -/
def noSel : Sel := ⟨none, none, []⟩

/-- C163: a call without criteria keeps the selection of the last call with criteria: also its records meet them. -/
theorem C163_criteria_stay (D : Obj) (hD : Usable D) (s : Sel) (hs : given s = true) (dat : List ℤ) (idat : ℕ) (tol : ℤ)
    (htol : 0 ≤ tol) (hcur : D.cur < D.pairs.records) (out : Option ℕ) (E : Obj)
    (h : matchDual D s dat idat tol = .ok (out, E)) (hidat : idat < dat.length)
    (dat' : List ℤ) (idat' : ℕ) (i : ℕ) (F : Obj)
    (h' : matchDual E noSel dat' idat' tol = .ok (some i, F)) (hi : i < dat'.length) (hF : F.cur < F.pairs.records) :
    ∃ o e tO d, Shown F o e ∧ GoodPair D s o e tO ∧ dat'[i]? = some d ∧ |tO - d| ≤ tol := by
  have key : PairsOf E s ∧ E.ocb = D.ocb ∧ E.eab = D.eab ∧ E.maxDelta = D.maxDelta ∧ (E.cur < E.pairs.records → 0 ≤ E.cur) := by
    unfold matchDual at h
    rw [if_neg (by omega), if_neg (by omega)] at h
    simp only [hs, if_true] at h
    split at h
    · cases h
    · rename_i p hp
      split at h
      · cases h
        exact ⟨hp, rfl, rfl, rfl, fun _ => le_rfl⟩
      · rename_i hpos
        unfold search at h
        split at h
        · cases h
        · rename_i j r hmd
          cases h
          refine ⟨hp, rfl, rfl, rfl, fun _ => ?_⟩
          simp only at hmd hpos
          have hne : p.dtime ≠ [] := by
            intro hc
            apply hpos
            rw [Pairs.records, hc]
            simp
          obtain ⟨o, r', e, h1, -⟩ := C15_match_total_monotone (.dual _ hne) 0 dat idat tol (by decide) htol
          rw [hmd] at e
          cases e
          exact h1
  obtain ⟨hp, e1, e2, e3, h0⟩ := key
  have hg : given noSel = false := rfl
  unfold matchDual at h'
  rw [hg] at h'
  split at h'
  · cases h'; omega
  split at h'
  · cases h'; omega
  · have hE : Usable E := by unfold Usable; rw [e1, e2, e3]; exact hD
    obtain ⟨o, e, tO, d, a1, a2, a3, a4⟩ := search_good E hE s hp dat' idat' tol htol (by have := h0 (by omega); omega)
      (by have := h0 (by omega); omega) i F h' hi hF
    refine ⟨o, e, tO, d, a1, ?_, a3, a4⟩
    unfold GoodPair at a2 ⊢
    rw [e1, e2, e3] at a2
    exact a2

/-- C163: what a call with criteria returns and leaves does not depend on the pairs and the cursor before it, provided that
the cursor is not past the last pair. -/
theorem C163_history_free (D D' : Obj) (ho : D'.ocb = D.ocb) (he : D'.eab = D.eab) (hm : D'.maxDelta = D.maxDelta) (s : Sel)
    (hs : given s = true) (dat : List ℤ) (idat : ℕ) (tol : ℤ) (hidat : idat < dat.length) (h : D.cur < D.pairs.records)
    (h' : D'.cur < D'.pairs.records) : matchDual D' s dat idat tol = matchDual D s dat idat tol := by
  obtain ⟨o, e, m, p, c⟩ := D
  obtain ⟨o', e', m', p', c'⟩ := D'
  simp only at ho he hm h h'
  subst ho he hm
  simp only [matchDual]
  rw [if_neg (show ¬ dat.length ≤ idat by omega), if_neg (show ¬ dat.length ≤ idat by omega), if_neg (show ¬ p'.records ≤ c' by omega),
    if_neg (show ¬ p.records ≤ c by omega)]
  simp only [hs, if_true]

/-- The members used in the examples: three records each, at 0, 100 and 200 s, with merits 1, 5 and 3. -/
def exMem : Bnd where
  dtime := [0, 100, 200]
  fom := [.fin 1, .fin 5, .fin 3]
  attrs := []
  minFom := .fin 0
  maxFom := .pinf

theorem exMem_wf : exMem.WF := ⟨rfl, by intro k v h; simp [Bnd.attr, exMem] at h⟩

/-- The pairs for a smallest merit of 2 and of 0. -/
def exPairs2 : Pairs := ⟨[100, 200], [1, 2], [1, 2]⟩

def exPairs0 : Pairs := ⟨[0, 100, 200], [0, 1, 2], [0, 1, 2]⟩

def minSel (x : ℚ) : Sel := ⟨some (.fin x), none, []⟩

deriving instance DecidableEq for Except

theorem ex_pairs0 : setGoodInd exMem exMem (minSel 0) (minSel 0) 10 = .ok exPairs0 := by decide +kernel

theorem ex_pairs2 : setGoodInd exMem exMem (minSel 2) (minSel 2) 10 = .ok exPairs2 := by decide +kernel

/-- An object with all three pairs, the cursor at pair `c`. -/
def exObj (c : ℤ) : Obj := ⟨exMem, exMem, 10, exPairs0, c⟩

theorem exObj_usable (c : ℤ) : Usable (exObj c) := ⟨exMem_wf, exMem_wf, show (0 : ℤ) ≤ 10 by decide⟩

/-- The call with smallest merit 2 for a datum at 195 s. -/
theorem ex_match : matchDual (exObj 0) (minSel 2) [195] 0 60 = .ok (some 0, ⟨exMem, exMem, 10, exPairs2, 1⟩) := by
  have h : matchData (dualCycler exPairs2.dtime) 0 [195] 0 60 = .ok (some 0, 1) := by decide +kernel
  unfold matchDual
  rw [if_neg (by decide), if_neg (by decide)]
  simp only [show given (minSel 2) = true from rfl, if_true, exObj, ex_pairs2]
  rw [if_neg (by decide)]
  simp only [search, h]

/-- Non-vacuity of C163: the call shows the third record of both members. -/
example : ∃ o e tO d, Shown ⟨exMem, exMem, 10, exPairs2, 1⟩ o e ∧ GoodPair (exObj 0) (minSel 2) o e tO ∧ [(195 : ℤ)][0]? = some d ∧
    |tO - d| ≤ 60 :=
  C163_match_valid (exObj 0) (exObj_usable 0) (minSel 2) rfl [195] 0 60 (by decide) (by decide) 0 _ ex_match (by decide) (by decide)

/-- Non-vacuity of C163_criteria_stay: a call without criteria after it. -/
example : ∃ o e tO d, Shown ⟨exMem, exMem, 10, exPairs2, 1⟩ o e ∧ GoodPair (exObj 0) (minSel 2) o e tO ∧ [(200 : ℤ)][0]? = some d ∧
    |tO - d| ≤ 60 := by
  refine C163_criteria_stay (exObj 0) (exObj_usable 0) (minSel 2) rfl [195] 0 60 (by decide) (by decide) _ _ ex_match (by decide)
    [200] 0 0 ⟨exMem, exMem, 10, exPairs2, 1⟩ ?_ (by decide) (by decide)
  have h : matchData (dualCycler exPairs2.dtime) 1 [200] 0 60 = .ok (some 0, 1) := by decide +kernel
  unfold matchDual
  rw [if_neg (by decide), if_neg (by decide)]
  simp only [show given noSel = false from rfl, search, h]
  rfl

/-- C163: the cursor can go back.  With the cursor at the second pair, a datum at 0 s finds nothing without criteria, but with a
criterion that every record meets the search starts anew and ends at the first pair. -/
theorem C163_cursor_back_refuted :
    ∃ (D : Obj) (s : Sel) (dat : List ℤ) (tol : ℤ) (E F : Obj), Usable D ∧ PairsOf D s ∧ given s = true ∧ 0 ≤ tol ∧
      matchDual D s dat 0 tol = .ok (some 0, E) ∧ E.cur < D.cur ∧
      matchDual D noSel dat 0 tol = .ok (some 1, F) ∧ dat.length = 1 := by
  refine ⟨exObj 1, minSel 0, [0], 60, exObj 0, exObj 1, exObj_usable 1, ex_pairs0, rfl, by decide, ?_, by decide, ?_, rfl⟩
  · have h : matchData (dualCycler exPairs0.dtime) 0 [0] 0 60 = .ok (some 0, 0) := by decide +kernel
    unfold matchDual
    rw [if_neg (by decide), if_neg (by decide)]
    simp only [show given (minSel 0) = true from rfl, if_true, exObj, ex_pairs0]
    rw [if_neg (by decide)]
    simp only [search, h]
  · have h : matchData (dualCycler exPairs0.dtime) 1 [0] 0 60 = .ok (some 1, 1) := by decide +kernel
    unfold matchDual
    rw [if_neg (by decide), if_neg (by decide)]
    simp only [show given noSel = false from rfl, exObj, search, h]
    rfl

/-- C163: the criteria are not undone.  The object has a pair for the datum at 0 s; after a call with smallest merit 2 for
another datum, a call without criteria does not find it. -/
theorem C163_criteria_forgotten_refuted :
    ∃ (D : Obj) (s : Sel) (E F : Obj), Usable D ∧ D.pairs = exPairs0 ∧ At D.pairs.dtime 0 0 ∧
      matchDual D s [195] 0 60 = .ok (some 0, E) ∧ matchDual { E with cur := 0 } noSel [0] 0 60 = .ok (some 1, F) ∧
      matchDual D noSel [0] 0 60 = .ok (some 0, D) := by
  refine ⟨exObj 0, minSel 2, _, ⟨exMem, exMem, 10, exPairs2, 0⟩, exObj_usable 0, rfl, ⟨le_rfl, rfl⟩, ex_match, ?_, ?_⟩
  · have h : matchData (dualCycler exPairs2.dtime) 0 [0] 0 60 = .ok (some 1, 0) := by decide +kernel
    unfold matchDual
    rw [if_neg (by decide), if_neg (by decide)]
    simp only [show given noSel = false from rfl, search, h]
    rfl
  · have h : matchData (dualCycler exPairs0.dtime) 0 [0] 0 60 = .ok (some 0, 0) := by decide +kernel
    unfold matchDual
    rw [if_neg (by decide), if_neg (by decide)]
    simp only [show given noSel = false from rfl, exObj, search, h]
    rfl

/-! ### C164: the drivers -/

/-- The result of the driver as records of the members, for the pairs `p`. -/
def shownIn (p : Pairs) (l : List (ℕ × ℤ)) : List (ℕ × ℤ × ℤ) := l.map fun q => (q.1, tm p.ocbInd q.2, tm p.eabInd q.2)

theorem pairs_nondec (D : Obj) (hD : Usable D) (s : Sel) (p : Pairs) (hp : setGoodInd D.ocb D.eab s s D.maxDelta = .ok p)
    (hs : D.ocb.dtime.Pairwise (· ≤ ·)) : Nondec p.dtime := by
  obtain ⟨p', e, l1, l2, l3⟩ := C19_pairs_valid D.ocb D.eab hD.1 hD.2.1 s s D.maxDelta hD.2.2
  rw [hp] at e
  cases e
  obtain ⟨p', e, -, m⟩ := C20_pairs_monotone D.ocb D.eab hD.1 hD.2.1 s s D.maxDelta hD.2.2
  rw [hp] at e
  cases e
  rw [List.pairwise_iff_getElem] at m
  intro a b h0 h1 h2
  have key : ∀ k : ℤ, 0 ≤ k → k < p.dtime.length → ∃ o, p.ocbInd[k.toNat]? = some o ∧ 0 ≤ o ∧ o < D.ocb.dtime.length ∧
      tm p.dtime k = tm D.ocb.dtime o := by
    intro k hk0 hk1
    have ho := List.getElem?_eq_getElem (l := p.ocbInd) (i := k.toNat) (by omega)
    have he := List.getElem?_eq_getElem (l := p.eabInd) (i := k.toNat) (by omega)
    obtain ⟨-, -, tO, te, a1, -, -, a4⟩ := l3 _ _ _ ho he
    obtain ⟨b1, b2, b3⟩ := at_eq a1
    refine ⟨_, ho, b1, b2, ?_⟩
    have := tm_some a4
    rw [Int.toNat_of_nonneg hk0] at this
    omega
  obtain ⟨o, q1, q2, q3, q4⟩ := key a h0 (by omega)
  obtain ⟨o', r1, r2, r3, r4⟩ := key b (by omega) h2
  rw [q4, r4]
  apply nondec_of hs o o' q2 _ r3
  rcases eq_or_lt_of_le h1 with rfl | hlt
  · rw [q1] at r1; cases r1; exact le_rfl
  · obtain ⟨i1, i2⟩ := List.getElem?_eq_some_iff.1 q1
    obtain ⟨j1, j2⟩ := List.getElem?_eq_some_iff.1 r1
    have := m a.toNat b.toNat i1 j1 (by omega)
    omega

/-- The loop after a first datum: re-selecting every time changes nothing. -/
theorem driveDual_go (D : Obj) (s : Sel) (hs : given s = true) (p : Pairs)
    (hp : setGoodInd D.ocb D.eab s s D.maxDelta = .ok p) (hN : Nondec p.dtime) (l1 : p.ocbInd.length = p.dtime.length)
    (l2 : p.eabInd.length = p.dtime.length) (dat : List ℤ) (hd : dat.Pairwise (· ≤ ·)) (tol : ℤ) (htol : 0 ≤ tol) (n : ℕ) :
    ∀ (j : ℕ) (f : ℤ) (E : Obj), dat.length - j = n → E.ocb = D.ocb → E.eab = D.eab → E.maxDelta = D.maxDelta →
      ((j = 0 ∧ f = 0 ∧ E.cur < E.pairs.records) ∨
        (1 ≤ j ∧ E.pairs = p ∧ E.cur = f ∧ Found p.dtime tol (tm dat (j - 1 : ℕ)) f)) →
      driveDual E s dat tol j = match drive (dualCycler p.dtime) dat tol j f with
        | .error e => .error e
        | .ok l => .ok (shownIn p l) := by
  induction n using Nat.strong_induction_on with
  | _ n ih =>
    intro j f E hn eo ee em hE
    have hcur : E.cur < E.pairs.records := by
      rcases hE with ⟨-, -, h⟩ | ⟨-, h1, h2, h3⟩
      · exact h
      · rw [h1, h2]; exact h3.2.1
    rw [driveDual, drive]
    by_cases hj : j < dat.length
    · rw [if_pos ⟨hj, hcur⟩]
      by_cases hpos : 0 < p.records
      · have hsame : matchDual E s dat j tol =
            match matchData (dualCycler p.dtime) f dat j tol with
            | .error e => .error e
            | .ok (i, r) => .ok (i, { E with pairs := p, cur := r }) := by
          unfold matchDual
          rw [if_neg (by omega), if_neg (by omega)]
          simp only [hs, if_true, eo, ee, em, hp]
          rw [if_neg (by omega)]
          unfold search
          simp only []
          rcases hE with ⟨h0, h1, -⟩ | ⟨h0, h1, h2, h3⟩
          · rw [h1]
            split <;> simp_all
          · rw [match_restart hN htol h3 h0 hj (pairwise_tm hd _ _ (by omega) hj)]
            split <;> simp_all
        have hf : 0 ≤ f ∧ f < p.dtime.length := by
          rcases hE with ⟨-, h1, -⟩ | ⟨-, -, -, h3⟩
          · subst h1; exact ⟨le_rfl, hpos⟩
          · exact ⟨h3.1, h3.2.1⟩
        have hf' : j < dat.length ∧ f < (dualCycler p.dtime).records := ⟨hj, hf.2⟩
        rw [if_pos hf']
        cases hm : matchData (dualCycler p.dtime) f dat j tol with
        | error e =>
          rw [hm] at hsame
          simp only [] at hsame
          revert hsame
          generalize matchDual E s dat j tol = X
          rintro rfl
          rfl
        | ok q =>
          obtain ⟨o, r⟩ := q
          rw [hm] at hsame
          cases o with
          | none =>
            simp only [] at hsame
            revert hsame
            generalize matchDual E s dat j tol = X
            rintro rfl
            rfl
          | some i =>
            simp only [] at hsame
            revert hsame
            generalize matchDual E s dat j tol = X
            rintro rfl
            simp only []
            by_cases hi : i < dat.length ∧ r < p.records
            · have hi' : i < dat.length ∧ r < (dualCycler p.dtime).records := hi
              rw [if_pos hi, if_pos hi']
              have hge := matchData_ge _ _ _ _ _ _ _ hm
              have hF : Found p.dtime tol (tm dat i) r := by
                have hm0 : matchData (dualCycler p.dtime) 0 dat j tol = .ok (some i, r) := by
                  rcases hE with ⟨-, h1, -⟩ | ⟨h0, h1, h2, h3⟩
                  · rw [← h1]; exact hm
                  · rw [match_restart hN htol h3 h0 hj (pairwise_tm hd _ _ (by omega) hj)]; exact hm
                rw [matchData_main htol hj le_rfl hpos] at hm0
                exact mainLoop_found hN hd _ j 0 none rfl le_rfl (by omega) (fun k h0 h1 => by omega) i r hm0 hi.1 hi.2
              rw [tm_idx hF.1 (by rw [l1]; exact hF.2.1), tm_idx hF.1 (by rw [l2]; exact hF.2.1)]
              simp only []
              rw [ih (dat.length - (i + 1)) (by omega) (i + 1) r ⟨E.ocb, E.eab, E.maxDelta, p, r⟩ rfl eo ee em
                (Or.inr ⟨by omega, rfl, rfl, by simpa using hF⟩)]
              cases drive (dualCycler p.dtime) dat tol (i + 1) r with
              | error e => rfl
              | ok l => rfl
            · have hi' : ¬ (i < dat.length ∧ r < (dualCycler p.dtime).records) := hi
              rw [if_neg hi, if_neg hi']
              rfl
      · rcases hE with ⟨h0, h1, -⟩ | ⟨h0, h1, h2, h3⟩
        · have hsame : matchDual E s dat j tol = .ok (some j, { E with pairs := p, cur := 0 }) := by
            unfold matchDual
            rw [if_neg (by omega), if_neg (by omega)]
            simp only [hs, if_true, eo, ee, em, hp]
            rw [if_pos (by omega)]
          have hneg : ¬ (j < dat.length ∧ f < (dualCycler p.dtime).records) := by
            rintro ⟨-, h⟩
            rw [h1] at h
            exact hpos h
          rw [if_neg hneg]
          split
          · rename_i h; rw [hsame] at h; cases h
          · rename_i h; rw [hsame] at h; cases h
          · rename_i h
            rw [hsame] at h
            cases h
            rw [if_neg (fun h => hpos h.2)]
            rfl
        · exact absurd (lt_of_le_of_lt h3.1 h3.2.1) hpos
    · rw [if_neg (fun h => hj h.1), if_neg (fun h => hj h.1)]
      rfl

/-- C164: for time-ordered OCB records and data, a driver that hands the criteria to the matcher for every datum gives what one
gets by selecting the pairs once and then matching with a cursor that goes on from datum to datum. -/
theorem C164_select_once_partial (D : Obj) (hD : Usable D) (s : Sel) (hs : given s = true) (dat : List ℤ) (tol : ℤ) (htol : 0 ≤ tol)
    (hO : D.ocb.dtime.Pairwise (· ≤ ·)) (hd : dat.Pairwise (· ≤ ·)) (hcur : D.cur < D.pairs.records) :
    ∃ p, setGoodInd D.ocb D.eab s s D.maxDelta = .ok p ∧
      driveDual D s dat tol 0 = match drive (dualCycler p.dtime) dat tol 0 0 with
        | .error e => .error e
        | .ok l => .ok (l.map fun q => (q.1, p.ocbInd.getD q.2.toNat 0, p.eabInd.getD q.2.toNat 0)) := by
  obtain ⟨p, e, l1, l2, l3⟩ := C19_pairs_valid D.ocb D.eab hD.1 hD.2.1 s s D.maxDelta hD.2.2
  exact ⟨p, e, driveDual_go D s hs p e (pairs_nondec D hD s p e hO) l1 l2 dat hd tol htol _ 0 0 D rfl rfl rfl rfl
    (Or.inl ⟨rfl, rfl, hcur⟩)⟩

/-- C164: then a datum is processed exactly when some pair under the criteria has its time within the tolerance, the data come in
order, and the records used for a datum are a pair under the criteria with its time within the tolerance. -/
theorem C164_processed_partial (D : Obj) (hD : Usable D) (s : Sel) (hs : given s = true) (dat : List ℤ) (tol : ℤ) (htol : 0 ≤ tol)
    (hO : D.ocb.dtime.Pairwise (· ≤ ·)) (hd : dat.Pairwise (· ≤ ·)) (hcur : D.cur < D.pairs.records)
    (l : List (ℕ × ℤ × ℤ)) (h : driveDual D s dat tol 0 = .ok l) :
    ∃ p, setGoodInd D.ocb D.eab s s D.maxDelta = .ok p ∧
      (∀ j d, dat[j]? = some d → ((∃ q ∈ l, q.1 = j) ↔ ∃ t ∈ p.dtime, |t - d| ≤ tol)) ∧
      l.Pairwise (fun q q' => q.1 < q'.1) ∧
      ∀ q ∈ l, ∃ tO d, GoodPair D s q.2.1 q.2.2 tO ∧ dat[q.1]? = some d ∧ |tO - d| ≤ tol := by
  obtain ⟨p, e, hdr⟩ := C164_select_once_partial D hD s hs dat tol htol hO hd hcur
  obtain ⟨p', e', l1, l2, l3⟩ := C19_pairs_valid D.ocb D.eab hD.1 hD.2.1 s s D.maxDelta hD.2.2
  rw [e] at e'
  cases e'
  refine ⟨p, e, ?_⟩
  rw [h] at hdr
  by_cases hne : p.dtime = []
  · have : drive (dualCycler p.dtime) dat tol 0 0 = .ok [] := by
      rw [drive, if_neg]
      rintro ⟨-, hc⟩
      rw [dual_records, hne] at hc
      simp at hc
    rw [this] at hdr
    cases hdr
    simp [hne]
  · have hb : IsBoundary (dualCycler p.dtime) (fun _ => True) := .dual _ hne
    split at hdr
    · cases hdr
    · rename_i l' hl'
      cases hdr
      have hN : NondecOn (dualCycler p.dtime).times (Cand (fun _ => True) 0) := by
        intro a b x y hab _ _ ha hb
        rw [dual_times] at ha hb
        obtain ⟨a0, a1, rfl⟩ := at_eq ha
        obtain ⟨b0, b1, rfl⟩ := at_eq hb
        exact pairs_nondec D hD s p e hO a b a0 hab b1
      obtain ⟨w1, w2⟩ := C18_drive_pairs hb dat tol htol 0 (by decide) l' hl'
      refine ⟨fun j d hj => ?_, ?_, ?_⟩
      · have hc := C18_drive_complete hb dat tol htol 0 (by decide) hd hN l' hl' j
        constructor
        · rintro ⟨q, hq, rfl⟩
          obtain ⟨q', hq', rfl⟩ := List.mem_map.1 hq
          obtain ⟨k, -, d', t, h1, h2, h3⟩ := hc.1 ⟨q', hq', rfl⟩
          simp only at hj
          rw [hj] at h1
          cases h1
          exact ⟨t, List.mem_of_getElem? h2.2, h3⟩
        · rintro ⟨t, ht, h3⟩
          obtain ⟨k, hk⟩ := List.mem_iff_getElem?.1 ht
          obtain ⟨q, hq, hqj⟩ := hc.2 ⟨k, ⟨by omega, Or.inr trivial⟩, d, t, hj, ⟨by omega, by simpa [dual_times] using hk⟩, h3⟩
          exact ⟨_, List.mem_map.2 ⟨q, hq, rfl⟩, hqj⟩
      · rw [List.pairwise_map]
        exact w1.imp fun h => h.1
      · intro q hq
        obtain ⟨q', hq', rfl⟩ := List.mem_map.1 hq
        obtain ⟨⟨d, t, h1, ⟨h2, h2'⟩, h3⟩, -⟩ := w2 q' hq'
        rw [dual_times] at h2'
        have hlt := (List.getElem?_eq_some_iff.1 h2').1
        have ho := List.getElem?_eq_getElem (l := p.ocbInd) (i := q'.2.toNat) (by omega)
        have he := List.getElem?_eq_getElem (l := p.eabInd) (i := q'.2.toNat) (by omega)
        obtain ⟨g1, g2, tO, te, a1, a2, a3, a4⟩ := l3 _ _ _ ho he
        rw [h2'] at a4
        cases a4
        refine ⟨t, d, ?_, h1, h3⟩
        simp only [List.getD_eq_getElem?_getD, ho, he, Option.getD_some]
        exact ⟨g1, g2, a1, te, a2, a3⟩

/-- Non-vacuity of C164: the driver with smallest merit 2 and data at 0, 110 and 195 s processes the last two with the second
and third records. -/
example : driveDual (exObj 0) (minSel 2) [0, 110, 195] 60 0 = .ok [(1, 1, 1), (2, 2, 2)] := by
  obtain ⟨p, e, h⟩ := C164_select_once_partial (exObj 0) (exObj_usable 0) (minSel 2) rfl [0, 110, 195] 60 (by decide) (by decide)
    (by decide) (by decide)
  have e' := ex_pairs2
  change setGoodInd exMem exMem (minSel 2) (minSel 2) 10 = .ok p at e
  rw [e'] at e
  cases e
  rw [h, show drive (dualCycler exPairs2.dtime) [0, 110, 195] 60 0 0 = .ok [(1, 0), (2, 1)] by decide +kernel]
  rfl

/-- C164 fails for an object without pairs: the criteria of the call would select three pairs, but the driver never asks for
them and processes nothing. -/
theorem C164_no_pairs_refuted :
    ∃ (D : Obj) (s : Sel) (p : Pairs), Usable D ∧ given s = true ∧
      setGoodInd D.ocb D.eab s s D.maxDelta = .ok p ∧ p.records = 3 ∧ PairsOf D (minSel 9) ∧
      driveDual D s [0, 110, 195] 60 0 = .ok [] ∧ matchDual D s [0, 110, 195] 0 60 = .ok (some 0, D) := by
  refine ⟨⟨exMem, exMem, 10, ⟨[], [], []⟩, 0⟩, minSel 0, exPairs0, ⟨exMem_wf, exMem_wf, by decide⟩, rfl, ex_pairs0, rfl,
    (by unfold PairsOf; decide +kernel), ?_, ?_⟩
  · rw [driveDual, if_neg (by decide)]
  · rw [matchDual, if_neg (by decide), if_pos (by decide)]

/-- C164 fails for data out of order: with criteria the datum at 0 s after that at 195 s is processed, though matching with a
cursor that goes on does not process it. -/
theorem C164_unordered_refuted :
    ∃ (D : Obj) (s : Sel) (p : Pairs), Usable D ∧ given s = true ∧ D.ocb.dtime.Pairwise (· < ·) ∧
      setGoodInd D.ocb D.eab s s D.maxDelta = .ok p ∧
      driveDual D s [195, 0] 60 0 = .ok [(0, 2, 2), (1, 0, 0)] ∧ drive (dualCycler p.dtime) [195, 0] 60 0 0 = .ok [(0, 2)] := by
  refine ⟨exObj 0, minSel 0, exPairs0, exObj_usable 0, rfl, by decide, ex_pairs0, ?_, by decide +kernel⟩
  have h1 : matchDual (exObj 0) (minSel 0) [195, 0] 0 60 = .ok (some 0, exObj 2) := by
    have h : matchData (dualCycler exPairs0.dtime) 0 [195, 0] 0 60 = .ok (some 0, 2) := by decide +kernel
    unfold matchDual
    rw [if_neg (by decide), if_neg (by decide)]
    simp only [show given (minSel 0) = true from rfl, if_true, exObj, ex_pairs0]
    rw [if_neg (by decide)]
    simp only [search, h]
  have h2 : matchDual (exObj 2) (minSel 0) [195, 0] 1 60 = .ok (some 1, exObj 0) := by
    have h : matchData (dualCycler exPairs0.dtime) 0 [195, 0] 1 60 = .ok (some 1, 0) := by decide +kernel
    unfold matchDual
    rw [if_neg (by decide), if_neg (by decide)]
    simp only [show given (minSel 0) = true from rfl, if_true, exObj, ex_pairs0]
    rw [if_neg (by decide)]
    simp only [search, h]
  have h3 : driveDual (exObj 0) (minSel 0) [195, 0] 60 2 = .ok [] := by rw [driveDual, if_neg (by decide)]
  have h4 : driveDual (exObj 2) (minSel 0) [195, 0] 60 1 = .ok [(1, 0, 0)] := by
    rw [driveDual, if_pos (by decide)]
    split
    · rename_i h; rw [h2] at h; cases h
    · rename_i h; rw [h2] at h; cases h
    · rename_i h
      rw [h2] at h
      cases h
      rw [if_pos (by decide), h3]
      rfl
  rw [driveDual, if_pos (by decide)]
  split
  · rename_i h; rw [h1] at h; cases h
  · rename_i h; rw [h1] at h; cases h
  · rename_i h
    rw [h1] at h
    cases h
    rw [if_pos (by decide), h4]
    rfl

end Ocb.Reselect
