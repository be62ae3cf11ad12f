import Verif.Lemmas.Drive

/-!
# Properties C11-C18 and C60: selection of good records, matching in time, the driver loops

The vocabulary of the statements (`Selected`, `At`, `Close`, `NoFarther`, `NondecOn`, ...) is in `Verif.Spec.Cycle`.
-/

set_option autoImplicit false

namespace Ocb.Cycle

/-! ### C11 -/

/-- C11: from any cursor at or after -1 the search does not fail and moves the cursor forward; every record
stepped over is not selected; the new cursor is a selected record or at the end. -/
theorem C11_next_good (b : Bnd) (hb : b.WF) (mn mx : Option (Fl ℚ)) (kw : List Criterion) (rec : ℤ)
    (h0 : -1 ≤ rec) :
    ∃ r', getNext b mn mx kw rec = .ok r' ∧ rec < r' ∧
      (∀ k, rec < k → k < r' → k < b.records → ¬ Selected b mn mx kw k) ∧
      (r' < b.records → Selected b mn mx kw r') := by
  obtain ⟨r', e, h1, -, h2, h3⟩ := scan_spec b hb (mn.getD b.minFom) (mx.getD b.maxFom) (knownKw b kw)
    (knownKw_isSome b kw) (rec + 1) (by omega)
  refine ⟨r', e, by omega, fun k hk1 hk2 hk3 hg => ?_, fun h => ?_⟩
  · exact h2 k (by omega) hk2 hk3 ((good_knownKw b _ _ kw k).2 hg)
  · exact (good_knownKw b _ _ kw r').1 (h3 h)

/-- C11: if a later selected record exists, the cursor lands on the first one. -/
theorem C11_next_good_first (b : Bnd) (hb : b.WF) (mn mx : Option (Fl ℚ)) (kw : List Criterion) (rec k : ℤ)
    (h0 : -1 ≤ rec) (h1 : rec < k) (h2 : k < b.records) (h3 : Selected b mn mx kw k)
    (h4 : ∀ j, rec < j → j < k → ¬ Selected b mn mx kw j) : getNext b mn mx kw rec = .ok k := by
  obtain ⟨r', e, g1, g2, g3⟩ := C11_next_good b hb mn mx kw rec h0
  rw [e]
  rcases lt_trichotomy r' k with h | rfl | h
  · exact absurd (g3 (by omega)) (h4 r' g1 h)
  · rfl
  · exact absurd h3 (g2 k h1 h h2)

/-- C11: if no later record is selected, the cursor lands past the last record, from where it only moves on. -/
theorem C11_next_good_none (b : Bnd) (hb : b.WF) (mn mx : Option (Fl ℚ)) (kw : List Criterion) (rec : ℤ)
    (h0 : -1 ≤ rec) (h1 : ∀ k, rec < k → k < b.records → ¬ Selected b mn mx kw k) :
    ∃ r', getNext b mn mx kw rec = .ok r' ∧ b.records ≤ r' := by
  obtain ⟨r', e, g1, -, g3⟩ := C11_next_good b hb mn mx kw rec h0
  refine ⟨r', e, ?_⟩
  by_contra hc
  exact h1 r' g1 (by omega) (g3 (by omega))

/-- Records used in the examples: merits 1, 5, NaN, 3 and a fit error with a NaN. -/
def exBnd : Bnd where
  dtime := [0, 100, 200, 300]
  fom := [.fin 1, .fin 5, .nan, .fin 3]
  attrs := [("r_err", [.fin 1, .fin 9, .fin 1, .nan]), ("num_sectors", [.fin 10, .fin 20, .fin 30, .fin 40])]
  minFom := .fin 2
  maxFom := .pinf

theorem exBnd_wf : exBnd.WF := by
  refine ⟨rfl, ?_⟩
  intro k vals h
  unfold Bnd.attr exBnd at h
  simp only [List.lookup] at h
  split at h
  · simp only [Option.some.injEq] at h; subst h; rfl
  · split at h
    · simp only [Option.some.injEq] at h; subst h; rfl
    · simp at h

example : ∃ r', getNext exBnd none none [⟨"r_err", "max", .fin 5⟩] (-1) = .ok r' ∧ -1 < r' ∧
    (∀ k, -1 < k → k < r' → k < exBnd.records → ¬ Selected exBnd none none [⟨"r_err", "max", .fin 5⟩] k) ∧
    (r' < exBnd.records → Selected exBnd none none [⟨"r_err", "max", .fin 5⟩] r') :=
  C11_next_good _ exBnd_wf _ _ _ _ (by decide)

/-- The example is not vacuous: with the default limits the first selected record is number 1. -/
example : getNext exBnd none none [] (-1) = .ok 1 := by
  refine C11_next_good_first _ exBnd_wf _ _ _ _ _ (by decide) (by decide) (by decide) ?_ ?_
  · exact ⟨⟨.fin 5, rfl, by decide, by decide⟩, by simp⟩
  · intro j h1 h2
    obtain rfl : j = 0 := by omega
    rintro ⟨⟨m, hm, h3, -⟩, -⟩
    obtain rfl : (Fl.fin 1 : Fl ℚ) = m := by simpa [exBnd] using hm
    revert h3
    decide

/-! ### C12 -/

theorem goodLoop_spec (b : Bnd) (hb : b.WF) (mn mx : Option (Fl ℚ)) (kw : List Criterion) (rec : ℤ)
    (h0 : -1 ≤ rec) :
    ∃ l, goodLoop b mn mx kw rec = .ok l ∧ l.Pairwise (· < ·) ∧
      ∀ k, k ∈ l ↔ rec < k ∧ k < b.records ∧ Selected b mn mx kw k := by
  generalize hm : (b.records - rec).toNat = m
  induction m using Nat.strong_induction_on generalizing rec with
  | _ m ih =>
    by_cases hlt : rec < b.records
    · obtain ⟨r', e, g1, g2, g3⟩ := C11_next_good b hb mn mx kw rec h0
      obtain ⟨l, el, hp, hk⟩ := ih (b.records - r').toNat (by omega) r' (by omega) rfl
      have hg : goodLoop b mn mx kw rec = .ok (if r' < b.records then r' :: l else l) := by
        rw [goodLoop, if_pos hlt]
        split
        · simp_all
        · rename_i h
          rw [e] at h
          obtain rfl : r' = _ := by simpa using h
          rw [el]
      refine ⟨_, hg, ?_, ?_⟩
      · split
        · refine List.pairwise_cons.2 ⟨fun k hk' => ((hk k).1 hk').1, hp⟩
        · exact hp
      · intro k
        split
        · rename_i hr
          rw [List.mem_cons, hk k]
          constructor
          · rintro (rfl | ⟨h1, h2, h3⟩)
            · exact ⟨g1, hr, g3 hr⟩
            · exact ⟨by omega, h2, h3⟩
          · rintro ⟨h1, h2, h3⟩
            rcases lt_trichotomy k r' with h | h | h
            · exact absurd h3 (g2 k h1 h h2)
            · exact Or.inl h
            · exact Or.inr ⟨h, h2, h3⟩
        · rename_i hr
          rw [hk k]
          constructor
          · rintro ⟨h1, h2, h3⟩
            omega
          · rintro ⟨h1, h2, h3⟩
            exact absurd h3 (g2 k h1 (by omega) h2)
    · refine ⟨[], by rw [goodLoop, if_neg hlt], by simp, ?_⟩
      intro k
      simp only [List.not_mem_nil, false_iff]
      omega

/-- C12: the result is strictly increasing, contains exactly the selected records, and the cursor is restored. -/
theorem C12_retrieve_all (b : Bnd) (hb : b.WF) (mn mx : Option (Fl ℚ)) (kw : List Criterion) (rec : ℤ) :
    ∃ l, retrieveAll b mn mx kw rec = .ok (l, rec) ∧ l.Pairwise (· < ·) ∧
      ∀ k, k ∈ l ↔ 0 ≤ k ∧ k < b.records ∧ Selected b mn mx kw k := by
  obtain ⟨l, e, hp, hk⟩ := goodLoop_spec b hb mn mx kw (-1) (by omega)
  refine ⟨l, by rw [retrieveAll, e], hp, fun k => ?_⟩
  rw [hk k]
  constructor
  · rintro ⟨h1, h2⟩; exact ⟨by omega, h2⟩
  · rintro ⟨h1, h2⟩; exact ⟨by omega, h2⟩

example : ∃ l, retrieveAll exBnd none none [] 2 = .ok (l, 2) ∧ 1 ∈ l ∧ 2 ∉ l := by
  obtain ⟨l, e, -, hk⟩ := C12_retrieve_all exBnd exBnd_wf none none [] 2
  refine ⟨l, e, (hk 1).2 ⟨by decide, by decide, ⟨.fin 5, rfl, by decide, by decide⟩, by simp⟩, ?_⟩
  intro h
  obtain ⟨-, -, ⟨m, hm, h3, -⟩, -⟩ := (hk 2).1 h
  obtain rfl : (Fl.nan : Fl ℚ) = m := by simpa [exBnd] using hm
  revert h3
  decide

/-! ### C13 -/

/-- The comparison that each keyword documents, as a positive statement. -/
def Documented (op : String) (v bound : Fl ℚ) : Prop :=
  (op = "min" → Fl.lt bound v = true) ∧ (op = "mineq" → Fl.le bound v = true) ∧
  (op = "equal" → Fl.eq v bound = true) ∧ (op = "maxeq" → Fl.le v bound = true) ∧
  (op = "max" → Fl.lt v bound = true)

theorem fl_lt_iff_not_le {a b : Fl ℚ} (ha : a ≠ .nan) (hb : b ≠ .nan) : Fl.lt b a = true ↔ Fl.le a b = false := by
  cases a <;> cases b <;> simp_all [Fl.lt, Fl.le]

theorem fl_le_iff_not_lt {a b : Fl ℚ} (ha : a ≠ .nan) (hb : b ≠ .nan) : Fl.le b a = true ↔ Fl.lt a b = false := by
  cases a <;> cases b <;> simp_all [Fl.lt, Fl.le]

/-- C13, meaning: a record whose attributes are numbers is accepted by `get_next_good_ocb_ind` exactly when its
merit is between the limits (inclusive) and every documented comparison holds. -/
theorem C13_criteria_meaning_partial (b : Bnd) (hb : b.WF) (mn mx : Option (Fl ℚ)) (kw : List Criterion) (k : ℤ)
    (h0 : 0 ≤ k) (h1 : k < b.records)
    (hnan : ∀ c ∈ kw, c.bound ≠ .nan ∧ ∀ vals, b.attr c.key = some vals → vals[k.toNat]? ≠ some .nan) :
    getNext b mn mx kw (k - 1) = .ok k ↔
      (∃ m, b.fom[k.toNat]? = some m ∧ Fl.le (mn.getD b.minFom) m = true ∧ Fl.le m (mx.getD b.maxFom) = true) ∧
        ∀ c ∈ kw, ∀ vals, b.attr c.key = some vals → ∀ v, vals[k.toNat]? = some v → Documented c.op v c.bound := by
  have hsel : getNext b mn mx kw (k - 1) = .ok k ↔ Selected b mn mx kw k := by
    obtain ⟨r', e, g1, g2, g3⟩ := C11_next_good b hb mn mx kw (k - 1) (by omega)
    constructor
    · intro h
      rw [h] at e
      obtain rfl : k = r' := by simpa using e
      exact g3 h1
    · intro h
      exact C11_next_good_first b hb mn mx kw (k - 1) k (by omega) (by omega) h1 h (fun j _ _ => by omega)
  rw [hsel]
  unfold Selected Good
  refine and_congr_right fun _ => ?_
  refine forall₂_congr fun c hc => forall₂_congr fun vals hv => forall₂_congr fun v hvv => ?_
  have hv0 : v ≠ .nan := by
    rintro rfl
    exact (hnan c hc).2 vals hv hvv
  have hb0 := (hnan c hc).1
  unfold Passes Documented
  rw [fl_lt_iff_not_le hv0 hb0, fl_le_iff_not_lt hv0 hb0, fl_le_iff_not_lt hb0 hv0, fl_lt_iff_not_le hb0 hv0]

/-- C13, order: the criteria may be given in any order, with or without repetition. -/
theorem C13_order_irrelevant (b : Bnd) (mn mx : Option (Fl ℚ)) (kw kw' : List Criterion) (hb : b.WF) (rec : ℤ)
    (h : ∀ c, c ∈ kw ↔ c ∈ kw') (h0 : -1 ≤ rec) (hr : rec < b.records) :
    getNext b mn mx kw rec = getNext b mn mx kw' rec := by
  have hsel : ∀ k, Selected b mn mx kw k ↔ Selected b mn mx kw' k := by
    intro k
    unfold Selected Good
    simp only [h]
  obtain ⟨r, e, g1, g1', g2, g3⟩ := (bnd_lawful b hb mn mx kw).next_ok rec h0 hr
  obtain ⟨r', e', g1', g1'', g2', g3'⟩ := (bnd_lawful b hb mn mx kw').next_ok rec h0 hr
  have hb1 : (b.cycler mn mx kw).records = b.records := rfl
  have hb2 : (b.cycler mn mx kw').records = b.records := rfl
  have hrr : r = r' := by
    rcases lt_trichotomy r r' with h | h | h
    · exact absurd ((hsel r).1 (g3 (by omega))) (g2' r (by omega) h)
    · exact h
    · exact absurd ((hsel r').2 (g3' (by omega))) (g2 r' (by omega) h)
  have e1 : getNext b mn mx kw rec = .ok r := e
  have e2 : getNext b mn mx kw' rec = .ok r' := e'
  rw [e1, e2, hrr]

/-- C13, unknown attributes: criteria on attributes the boundary does not have are ignored. -/
theorem C13_unknown_ignored (b : Bnd) (mn mx : Option (Fl ℚ)) (kw : List Criterion) (rec : ℤ) :
    getNext b mn mx kw rec = getNext b mn mx (kw.filter fun c => (b.attr c.key).isSome) rec := by
  unfold getNext knownKw
  rw [List.filter_filter]
  simp

/-- C13: a NaN merit is never selected, whatever the limits. -/
theorem C13_nan_merit_never (b : Bnd) (mn mx : Option (Fl ℚ)) (kw : List Criterion) (k : ℤ)
    (h : b.fom[k.toNat]? = some .nan) : ¬ Selected b mn mx kw k := by
  rintro ⟨⟨m, hm, h1, -⟩, -⟩
  rw [h] at hm
  obtain rfl : (Fl.nan : Fl ℚ) = m := by simpa using hm
  cases hx : (mn.getD b.minFom) <;> rw [hx] at h1 <;> simp [Fl.le] at h1

/-- C13: a NaN attribute never passes 'equal'. -/
theorem C13_nan_never_equal (b : Bnd) (mn mx : Option (Fl ℚ)) (kw : List Criterion) (k : ℤ) (c : Criterion)
    (hc : c ∈ kw) (hop : c.op = "equal") (vals : List (Fl ℚ)) (hv : b.attr c.key = some vals)
    (h : vals[k.toNat]? = some .nan) : ¬ Selected b mn mx kw k := by
  rintro ⟨-, h2⟩
  have := (h2 c hc vals hv _ h).2.2.1 hop
  cases hx : c.bound <;> rw [hx] at this <;> simp [Fl.eq] at this

/-- C13 fails for NaN attributes: record 3 of the example is selected under `r_err` "max" 5 and under `r_err`
"min" 5, though its `r_err` is NaN and neither comparison holds. -/
theorem C13_nan_attribute_refuted :
    Selected exBnd none none [⟨"r_err", "max", .fin 5⟩] 3 ∧ Selected exBnd none none [⟨"r_err", "min", .fin 5⟩] 3 ∧
      ¬ Documented "max" (.nan : Fl ℚ) (.fin 5) ∧ ¬ Documented "min" (.nan : Fl ℚ) (.fin 5) := by
  have key : ∀ op, (op = "max" ∨ op = "min") → Selected exBnd none none [⟨"r_err", op, .fin 5⟩] 3 := by
    intro op hop
    refine ⟨⟨.fin 3, rfl, by decide, by decide⟩, ?_⟩
    intro c hc vals hv v hvv
    obtain rfl : c = ⟨"r_err", op, .fin 5⟩ := by simpa using hc
    obtain rfl : [.fin 1, .fin 9, .fin 1, .nan] = vals := by
      simpa [Bnd.attr, exBnd] using hv
    obtain rfl : (Fl.nan : Fl ℚ) = v := by simpa using hvv
    rcases hop with rfl | rfl <;> refine ⟨?_, ?_, ?_, ?_, ?_⟩ <;> simp [Fl.le, Fl.lt]
  refine ⟨key _ (Or.inl rfl), key _ (Or.inr rfl), ?_, ?_⟩
  · intro h; simpa [Fl.lt] using h.2.2.2.2 rfl
  · intro h; simpa [Fl.lt] using h.1 rfl

/-! ### C14-C17 -/

section Match

variable {c : Cycler} {good : ℤ → Prop}

/-- C14: a reported pair is within the tolerance, and the record is a good one or the one the search started
from. -/
theorem C14_match_within_tolerance (hb : IsBoundary c good) (rec : ℤ) (dat : List ℤ) (idat : ℕ) (tol : ℤ)
    (h0 : -1 ≤ rec) (htol : 0 ≤ tol) (i : ℕ) (r' : ℤ) (h : matchData c rec dat idat tol = .ok (some i, r'))
    (hi : i < dat.length) (hr : r' < c.records) :
    Close c dat tol i r' ∧ (good r' ∨ r' = rec) := by
  obtain ⟨out, q, e, hm⟩ := matchData_out hb.lawful rec dat idat tol h0 htol
  rw [h] at e
  obtain ⟨rfl, rfl⟩ : some i = out ∧ r' = q := by simpa using e
  cases hm with
  | hit _ _ a1 a2 a3 a4 a5 a6 a7 a8 =>
    exact ⟨⟨_, _, get_tm hi, at_tm a3 a4, a6⟩, a5.2.symm⟩
  | over _ _ a0 a1 a2 => omega

/-- C14: a search started before the first record, or at a good record, only reports good records. -/
theorem C14_match_good (hb : IsBoundary c good) (rec : ℤ) (dat : List ℤ) (idat : ℕ) (tol : ℤ)
    (h0 : rec = -1 ∨ (0 ≤ rec ∧ good rec)) (htol : 0 ≤ tol) (i : ℕ) (r' : ℤ)
    (h : matchData c rec dat idat tol = .ok (some i, r')) (hi : i < dat.length) (hr : r' < c.records) :
    0 ≤ r' ∧ good r' := by
  obtain ⟨⟨d, t, -, ⟨h1, -⟩, -⟩, h2⟩ := C14_match_within_tolerance hb rec dat idat tol (by omega) htol i r' h hi hr
  refine ⟨h1, ?_⟩
  rcases h2 with h2 | rfl
  · exact h2
  · rcases h0 with rfl | h0
    · omega
    · exact h0.2

/-- C15: whatever the input, the search ends normally (no index error, no unbound variable), never goes back in
the data and never moves the boundary cursor back. -/
theorem C15_match_total_monotone (hb : IsBoundary c good) (rec : ℤ) (dat : List ℤ) (idat : ℕ) (tol : ℤ)
    (h0 : -1 ≤ rec) (htol : 0 ≤ tol) :
    ∃ out r', matchData c rec dat idat tol = .ok (out, r') ∧ rec ≤ r' ∧ ∀ i, out = some i → idat ≤ i := by
  obtain ⟨out, q, e, hm⟩ := matchData_out hb.lawful rec dat idat tol h0 htol
  refine ⟨out, q, e, ?_⟩
  cases hm with
  | hit i _ a1 a2 a3 a4 a5 => exact ⟨a5.1, fun j hj => by simp at hj; omega⟩
  | over i _ a0 a1 => exact ⟨a0, fun j hj => by simp at hj; omega⟩
  | early _ a0 a1 => exact ⟨by omega, by simp⟩
  | late _ a0 a1 => exact ⟨a0, by simp⟩

/-- C15: with time-ordered data and records, every datum between the start index and the returned one has no
usable record within the tolerance. -/
theorem C15_match_skips_nothing (hb : IsBoundary c good) (rec : ℤ) (dat : List ℤ) (idat : ℕ) (tol : ℤ)
    (h0 : -1 ≤ rec) (htol : 0 ≤ tol) (hD : dat.Pairwise (· ≤ ·)) (hN : NondecOn c.times (Cand good rec))
    (i : ℕ) (r' : ℤ) (h : matchData c rec dat idat tol = .ok (some i, r')) (j : ℕ) (hj : idat ≤ j) (hji : j < i)
    (k : ℤ) (hk : Cand good rec k) : ¬ Close c dat tol j k := by
  rintro ⟨d, t, hd, ht, hc⟩
  obtain ⟨hk0, hk1, rfl⟩ := at_eq ht
  have hjl := (List.getElem?_eq_some_iff.1 hd).1
  obtain rfl : tm dat j = d := tm_some hd
  obtain ⟨out, q, e, hm⟩ := matchData_out hb.lawful rec dat idat tol h0 htol
  rw [h] at e
  obtain ⟨rfl, rfl⟩ : some i = out ∧ r' = q := by simpa using e
  cases hm with
  | hit _ _ a1 a2 a3 a4 a5 a6 a7 a8 =>
    have := a7 hD hN j hj hji k hk0 hk1 hk
    omega
  | over _ _ a0 a1 a2 a3 =>
    have := a3 hD hN j hj hjl k hk0 hk1 hk
    omega

/-- C16: for strictly increasing times of the usable records and time-ordered data, the chosen record is at least
as close to the datum as every usable record at or after the starting cursor. -/
theorem C16_match_closest (hb : IsBoundary c good) (rec : ℤ) (dat : List ℤ) (idat : ℕ) (tol : ℤ)
    (h0 : -1 ≤ rec) (htol : 0 ≤ tol) (hD : dat.Pairwise (· ≤ ·)) (hS : StrictOn c.times (Cand good rec))
    (i : ℕ) (r' : ℤ) (h : matchData c rec dat idat tol = .ok (some i, r'))
    (hi : i < dat.length) (hr : r' < c.records) (k : ℤ) (hk : Cand good rec k) : NoFarther c dat i r' k := by
  intro d t t' hd ht ht'
  obtain ⟨hk0, hk1, rfl⟩ := at_eq ht'
  obtain ⟨hr0, hr1, rfl⟩ := at_eq ht
  obtain rfl : tm dat i = d := tm_some hd
  obtain ⟨out, q, e, hm⟩ := matchData_out hb.lawful rec dat idat tol h0 htol
  rw [h] at e
  obtain ⟨rfl, rfl⟩ : some i = out ∧ r' = q := by simpa using e
  cases hm with
  | hit _ _ a1 a2 a3 a4 a5 a6 a7 a8 => exact a8 hD hS k hk0 hk1 hk
  | over _ _ a0 a1 a2 a3 => omega

/-- C16 fails when two records share a time: for record times 0, 0, 10 and a datum at 10 the search stops on the
first record, 10 away, although record 2 matches exactly. -/
theorem C16_match_plateau_refuted :
    ∃ (times dat : List ℤ) (tol : ℤ), times.Pairwise (· ≤ ·) ∧
      matchData (dualCycler times) 0 dat 0 tol = .ok (some 0, 0) ∧
      Close (dualCycler times) dat 0 0 2 ∧ ¬ NoFarther (dualCycler times) dat 0 0 2 := by
  refine ⟨[0, 0, 10], [10], 60, by decide, ?_, ⟨10, 10, rfl, ⟨by decide, rfl⟩, by decide⟩, ?_⟩
  · have hcl : closest (dualCycler [0, 0, 10]) 10 0 (0 - 10) = .ok 0 := by
      simp [closest, climb, dualCycler, Cycler.records, pyIdx, pyGet, dualNext]
    exact mainLoop_hit (tr := 0) rfl (by decide) rfl (by decide) (by decide) hcl
  · intro h
    have := h 10 0 10 rfl ⟨by decide, rfl⟩ ⟨by decide, rfl⟩
    revert this
    decide

/-- C17: when `None` is returned, no datum at or after the start index has a usable record within the
tolerance (time-ordered data and records). -/
theorem C17_none_means_no_match (hb : IsBoundary c good) (rec : ℤ) (dat : List ℤ) (idat : ℕ) (tol : ℤ)
    (h0 : -1 ≤ rec) (htol : 0 ≤ tol) (hD : dat.Pairwise (· ≤ ·)) (hN : NondecOn c.times (Cand good rec)) (r' : ℤ)
    (h : matchData c rec dat idat tol = .ok (none, r')) (j : ℕ) (hj : idat ≤ j) (k : ℤ) (hk : Cand good rec k) :
    ¬ Close c dat tol j k := by
  rintro ⟨d, t, hd, ht, hc⟩
  obtain ⟨hk0, hk1, rfl⟩ := at_eq ht
  have hjl := (List.getElem?_eq_some_iff.1 hd).1
  obtain rfl : tm dat j = d := tm_some hd
  obtain ⟨out, q, e, hm⟩ := matchData_out hb.lawful rec dat idat tol h0 htol
  rw [h] at e
  obtain ⟨rfl, rfl⟩ : none = out ∧ r' = q := by simpa using e
  cases hm with
  | early _ a0 a1 a2 a3 a4 a5 =>
    have h1 := a5 j hj hjl
    have h2 : r' ≤ k := by
      rcases hk.2 with h | h
      · omega
      · by_contra hc'
        exact a4 k hk0 (by omega) h
    have h3 := nondec_tm hN r' k a1 h2 hk1 ⟨by omega, Or.inr a3⟩ hk
    have h4 := le_abs_self (tm c.times k - tm dat j)
    omega
  | late _ a0 a1 a2 an ae a3 =>
    have h1 := a3 k hk0 hk1 hk
    have h2 := pairwise_tm hD 0 j (by omega) hjl
    have h3 := neg_le_abs (tm c.times k - tm dat j)
    push_cast at h2
    omega

/-- C17: when the returned index is past the data or the cursor past the records, no datum at or after the start
index has a usable record within the tolerance (time-ordered data and records). -/
theorem C17_exhausted_means_no_match (hb : IsBoundary c good) (rec : ℤ) (dat : List ℤ) (idat : ℕ) (tol : ℤ)
    (h0 : -1 ≤ rec) (htol : 0 ≤ tol) (hD : dat.Pairwise (· ≤ ·)) (hN : NondecOn c.times (Cand good rec)) (i : ℕ)
    (r' : ℤ) (h : matchData c rec dat idat tol = .ok (some i, r')) (hend : dat.length ≤ i ∨ c.records ≤ r')
    (j : ℕ) (hj : idat ≤ j) (k : ℤ) (hk : Cand good rec k) : ¬ Close c dat tol j k := by
  rintro ⟨d, t, hd, ht, hc⟩
  obtain ⟨hk0, hk1, rfl⟩ := at_eq ht
  have hjl := (List.getElem?_eq_some_iff.1 hd).1
  obtain rfl : tm dat j = d := tm_some hd
  obtain ⟨out, q, e, hm⟩ := matchData_out hb.lawful rec dat idat tol h0 htol
  rw [h] at e
  obtain ⟨rfl, rfl⟩ : some i = out ∧ r' = q := by simpa using e
  cases hm with
  | hit _ _ a1 a2 a3 a4 => omega
  | over _ _ a0 a1 a2 a3 =>
    have := a3 hD hN j hj hjl k hk0 hk1 hk
    omega

/-- C17: conversely, a match that exists is found. -/
theorem C17_match_found (hb : IsBoundary c good) (rec : ℤ) (dat : List ℤ) (idat : ℕ) (tol : ℤ)
    (h0 : -1 ≤ rec) (htol : 0 ≤ tol) (hD : dat.Pairwise (· ≤ ·)) (hN : NondecOn c.times (Cand good rec))
    (j : ℕ) (hj : idat ≤ j) (k : ℤ) (hk : Cand good rec k) (hc : Close c dat tol j k) :
    ∃ i r', matchData c rec dat idat tol = .ok (some i, r') ∧ i ≤ j ∧ i < dat.length ∧ r' < c.records ∧
      Close c dat tol i r' := by
  obtain ⟨out, r', e, -⟩ := C15_match_total_monotone hb rec dat idat tol h0 htol
  cases out with
  | none => exact absurd hc (C17_none_means_no_match hb rec dat idat tol h0 htol hD hN r' e j hj k hk)
  | some i =>
    by_cases hend : dat.length ≤ i ∨ c.records ≤ r'
    · exact absurd hc (C17_exhausted_means_no_match hb rec dat idat tol h0 htol hD hN i r' e hend j hj k hk)
    · push Not at hend
      refine ⟨i, r', e, ?_, hend.1, hend.2, (C14_match_within_tolerance hb rec dat idat tol h0 htol i r' e hend.1
        hend.2).1⟩
      by_contra hlt
      exact C15_match_skips_nothing hb rec dat idat tol h0 htol hD hN i r' e j hj (by omega) k hk hc

/-- C17: the documented "None if all of the data have been searched" is not what is returned.  With a record at 0
and data at 1000 and 2000 (tolerance 60), the search from datum 1 returns index 1, a valid index, with
the cursor past the records. -/
theorem C17_documented_none_refuted :
    ∃ (times dat : List ℤ) (tol : ℤ) (idat : ℕ), times.Pairwise (· < ·) ∧ dat.Pairwise (· < ·) ∧
      matchData (dualCycler times) 0 dat idat tol = .ok (some idat, 1) ∧ idat < dat.length ∧
      ¬ Close (dualCycler times) dat tol idat 0 ∧ (dualCycler times).records = 1 := by
  refine ⟨[0], [1000, 2000], 60, 1, by decide, by decide, ?_, by decide, ?_, rfl⟩
  · simp [matchData, mainLoop, afterLoop, dualCycler, Cycler.records, pyIdx, pyGet, dualNext]
    rfl
  · rintro ⟨d, t, hd, ⟨-, ht⟩, h⟩
    obtain rfl : (2000 : ℤ) = d := by simpa using hd
    obtain rfl : (0 : ℤ) = t := by simpa [dualCycler] using ht
    revert h
    decide

/-! ### C18, C60 -/

/-- C18: the driver loop handles the data in strictly increasing order, never moves the boundary cursor back, and
only processes pairs within the tolerance. -/
theorem C18_drive_pairs (hb : IsBoundary c good) (dat : List ℤ) (tol : ℤ) (htol : 0 ≤ tol) (rec : ℤ) (h0 : -1 ≤ rec)
    (l : List (ℕ × ℤ)) (h : drive c dat tol 0 rec = .ok l) :
    l.Pairwise (fun p q => p.1 < q.1 ∧ p.2 ≤ q.2) ∧ ∀ p ∈ l, Close c dat tol p.1 p.2 ∧ Cand good rec p.2 := by
  obtain ⟨h1, h2, -, -⟩ := ((drive_out hb.lawful dat tol htol rec h0) _ 0 rec le_rfl (Or.inl rfl)).2 l h
  refine ⟨h2, fun p hp => ?_⟩
  obtain ⟨-, a2, -, a4, a5, a6, a7⟩ := h1 p hp
  exact ⟨⟨_, _, get_tm a2, at_tm a4 a5, a7⟩, a6⟩

/-- C18: for time-ordered data and records, the processed data are exactly those with a usable record within the
tolerance. -/
theorem C18_drive_complete (hb : IsBoundary c good) (dat : List ℤ) (tol : ℤ) (htol : 0 ≤ tol) (rec : ℤ)
    (h0 : -1 ≤ rec) (hD : dat.Pairwise (· ≤ ·)) (hN : NondecOn c.times (Cand good rec))
    (l : List (ℕ × ℤ)) (h : drive c dat tol 0 rec = .ok l) (j : ℕ) :
    (∃ p ∈ l, p.1 = j) ↔ ∃ k, Cand good rec k ∧ Close c dat tol j k := by
  obtain ⟨-, -, h3, -⟩ := ((drive_out hb.lawful dat tol htol rec h0) _ 0 rec le_rfl (Or.inl rfl)).2 l h
  constructor
  · rintro ⟨p, hp, rfl⟩
    obtain ⟨a, b⟩ := (C18_drive_pairs hb dat tol htol rec h0 l h).2 p hp
    exact ⟨p.2, b, a⟩
  · rintro ⟨k, hk, d, t, hd, ht, hc⟩
    obtain ⟨hk0, hk1, rfl⟩ := at_eq ht
    have hjl := (List.getElem?_eq_some_iff.1 hd).1
    obtain rfl : tm dat j = d := tm_some hd
    exact h3 hD hN (Or.inl rfl) j (by omega) hjl ⟨k, hk0, hk1, hk, hc⟩

/-- C18: for time-ordered data and strictly increasing record times, each processed datum is paired with a record
nearest to it among all usable records. -/
theorem C18_drive_nearest (hb : IsBoundary c good) (dat : List ℤ) (tol : ℤ) (htol : 0 ≤ tol) (rec : ℤ)
    (h0 : -1 ≤ rec) (hD : dat.Pairwise (· ≤ ·)) (hS : StrictOn c.times (Cand good rec))
    (l : List (ℕ × ℤ)) (h : drive c dat tol 0 rec = .ok l) (p : ℕ × ℤ) (hp : p ∈ l) (k : ℤ)
    (hk : Cand good rec k) : NoFarther c dat p.1 p.2 k := by
  obtain ⟨-, -, -, h4⟩ := ((drive_out hb.lawful dat tol htol rec h0) _ 0 rec le_rfl (Or.inl rfl)).2 l h
  intro d t t' hd ht ht'
  obtain ⟨hk0, hk1, rfl⟩ := at_eq ht'
  obtain ⟨-, -, rfl⟩ := at_eq ht
  obtain rfl : tm dat p.1 = d := tm_some hd
  exact h4 hD hS (Or.inl rfl) p hp k hk0 hk1 hk

/-- The two situations in which the first search of a driver returns `None`: all data lie before the first good
record by more than the tolerance (only looked for when the cursor is at -1), or all usable records lie before the
first datum by more than the tolerance. -/
def NoOverlap (c : Cycler) (good : ℤ → Prop) (rec : ℤ) (dat : List ℤ) (tol : ℤ) : Prop :=
  (∃ d, dat[0]? = some d) ∧
    ((rec = -1 ∧ ∃ f t, At c.times f t ∧ good f ∧ (∀ k, 0 ≤ k → k < f → ¬ good k) ∧ ∀ d ∈ dat, d < t - tol) ∨
      ((∃ k t, At c.times k t ∧ Cand good rec k) ∧
        ∀ k t d, At c.times k t → Cand good rec k → dat[0]? = some d → t < d - tol))

theorem noneCond_iff (rec : ℤ) (dat : List ℤ) (tol : ℤ) :
    NoneCond c good rec dat tol ↔ NoOverlap c good rec dat tol := by
  unfold NoneCond NoOverlap
  have hpos : 0 < dat.length ↔ ∃ d, dat[0]? = some d := by
    constructor
    · intro h; exact ⟨_, get_tm h⟩
    · rintro ⟨d, hd⟩; exact (List.getElem?_eq_some_iff.1 hd).1
  rw [hpos]
  refine and_congr_right fun ⟨d0, hd0⟩ => or_congr (and_congr_right fun _ => ?_) (and_congr ?_ ?_)
  · constructor
    · rintro ⟨f, f0, f1, f2, f3, f4⟩
      refine ⟨f, _, at_tm f0 f1, f2, f3, fun d hd => ?_⟩
      obtain ⟨j, hj⟩ := List.mem_iff_getElem?.1 hd
      have := f4 j (List.getElem?_eq_some_iff.1 hj).1
      rwa [tm_some hj] at this
    · rintro ⟨f, t, ht, f2, f3, f4⟩
      obtain ⟨f0, f1, rfl⟩ := at_eq ht
      exact ⟨f, f0, f1, f2, f3, fun j hj => f4 _ (List.mem_iff_getElem?.2 ⟨j, get_tm hj⟩)⟩
  · constructor
    · rintro ⟨k, k0, k1, k2⟩; exact ⟨k, _, at_tm k0 k1, k2⟩
    · rintro ⟨k, t, ht, k2⟩
      obtain ⟨k0, k1, -⟩ := at_eq ht
      exact ⟨k, k0, k1, k2⟩
  · constructor
    · intro h k t d ht hk hd
      obtain ⟨k0, k1, rfl⟩ := at_eq ht
      have := h k k0 k1 hk
      have h2 : tm dat ((0 : ℕ) : ℤ) = d := tm_some hd
      push_cast at h2
      rwa [h2] at this
    · intro h k k0 k1 hk
      have h1 : dat[0]? = some (tm dat ((0 : ℕ) : ℤ)) := get_tm (hpos.2 ⟨d0, hd0⟩)
      have := h k _ _ (at_tm k0 k1) hk h1
      push_cast at this
      exact this

/-- C60: for time-ordered data and records the driver loop fails exactly in the two situations without overlap, and
then with `TypeError`; in all others it ends normally. -/
theorem C60_drive_error_iff_partial (hb : IsBoundary c good) (dat : List ℤ) (tol : ℤ) (htol : 0 ≤ tol) (rec : ℤ)
    (h0 : -1 ≤ rec) (hD : dat.Pairwise (· ≤ ·)) (hN : NondecOn c.times (Cand good rec)) (e : PyErr) :
    drive c dat tol 0 rec = .error e ↔ e = .typeError ∧ NoOverlap c good rec dat tol := by
  rw [drive_error_iff hb.lawful dat tol htol rec h0 hD hN, noneCond_iff]

/-- C60 fails: with one good record at time 0 and one datum 1000 s later, the driver raises `TypeError`. -/
theorem C60_no_overlap_refuted :
    ∃ (b : Bnd) (dat : List ℤ) (tol : ℤ), b.WF ∧ drive (b.cycler none none []) dat tol 0 (-1) = .error .typeError := by
  refine ⟨⟨[0], [.fin 1], [], .fin 0, .pinf⟩, [1000], 60, ⟨rfl, by intro k v h; simp [Bnd.attr] at h⟩, ?_⟩
  have hwf : Bnd.WF ⟨[0], [.fin 1], [], .fin 0, .pinf⟩ := ⟨rfl, by intro k v h; simp [Bnd.attr] at h⟩
  have hsel : Selected ⟨[0], [.fin 1], [], .fin 0, .pinf⟩ none none [] 0 :=
    ⟨⟨.fin 1, rfl, by decide, by decide⟩, by simp⟩
  have hk0 : ∀ k t, At [0] k t → k = 0 ∧ t = 0 := by
    intro k t ht
    obtain ⟨h1, h2, h3⟩ := at_eq ht
    have : k = 0 := by simp at h2; omega
    subst this
    exact ⟨rfl, h3⟩
  refine (C60_drive_error_iff_partial (.ocb _ none none [] hwf) [1000] 60 (by decide) (-1) le_rfl (by simp) ?_ _).2
    ⟨rfl, ⟨1000, rfl⟩, Or.inr ⟨⟨0, 0, ⟨le_rfl, rfl⟩, by decide, Or.inr hsel⟩, ?_⟩⟩
  · intro a b s t _ _ _ ha hb
    obtain ⟨-, rfl⟩ := hk0 a s ha
    obtain ⟨-, rfl⟩ := hk0 b t hb
    exact le_rfl
  · intro k t d ht _ hd
    obtain ⟨-, rfl⟩ := hk0 k t ht
    obtain rfl : (1000 : ℤ) = d := by simpa using hd
    decide

/-- Non-vacuity of C14-C18: a dual boundary with three records and four data, two of which match. -/
example : ∃ l, drive (dualCycler [0, 100, 200]) [10, 50, 95, 1000] 20 0 0 = .ok l ∧
    (∃ p ∈ l, p.1 = 0) ∧ (∃ p ∈ l, p.1 = 2) ∧ ¬ (∃ p ∈ l, p.1 = 1) := by
  have hb : IsBoundary (dualCycler [0, 100, 200]) (fun _ => True) := .dual _ (by simp)
  have hD : [10, 50, 95, (1000 : ℤ)].Pairwise (· ≤ ·) := by decide
  have hsort : [0, 100, (200 : ℤ)].Pairwise (· ≤ ·) := by decide
  have hN : NondecOn (dualCycler [0, 100, 200]).times (Cand (fun _ => True) 0) := by
    intro a b s t hab _ _ ha hb
    obtain ⟨a0, a1, rfl⟩ := at_eq ha
    obtain ⟨b0, b1, rfl⟩ := at_eq hb
    have := pairwise_tm hsort a.toNat b.toNat (by omega) (by have : ((dualCycler [0, 100, 200]).times.length : ℤ) = 3 := rfl; simp; omega)
    rwa [Int.toNat_of_nonneg a0, Int.toNat_of_nonneg b0] at this
  have hne : ∀ e, drive (dualCycler [0, 100, 200]) [10, 50, 95, 1000] 20 0 0 ≠ .error e := by
    intro e he
    obtain ⟨-, -, ⟨h, -⟩ | ⟨-, h⟩⟩ :=
      (C60_drive_error_iff_partial hb [10, 50, 95, 1000] 20 (by decide) 0 (by decide) hD hN e).1 he
    · omega
    · have := h 0 0 10 ⟨by decide, rfl⟩ ⟨by decide, Or.inl rfl⟩ rfl
      omega
  cases hd : drive (dualCycler [0, 100, 200]) [10, 50, 95, 1000] 20 0 0 with
  | error e => exact absurd hd (hne e)
  | ok l =>
    have hc := C18_drive_complete hb [10, 50, 95, 1000] 20 (by decide) 0 (by decide) hD hN l hd
    refine ⟨l, rfl, (hc 0).2 ⟨0, ⟨by decide, Or.inl rfl⟩, 10, 0, rfl, ⟨by decide, rfl⟩, by decide⟩,
      (hc 2).2 ⟨1, ⟨by decide, Or.inr trivial⟩, 95, 100, rfl, ⟨by decide, rfl⟩, by decide⟩, ?_⟩
    rw [hc 1]
    rintro ⟨k, -, d, t, hd', ht, habs⟩
    obtain rfl : (50 : ℤ) = d := by simpa using hd'
    obtain ⟨k0, k1, rfl⟩ := at_eq ht
    have hk : k = 0 ∨ k = 1 ∨ k = 2 := by
      have : ((dualCycler [0, 100, 200]).times.length : ℤ) = 3 := rfl
      omega
    rcases hk with rfl | rfl | rfl <;> revert habs <;> decide

end Match

end Ocb.Cycle
