import Verif.Spec.Cycle
import Mathlib.Tactic.Linarith
import Mathlib.Data.Int.Order.Basic

/-! Helper lemmas for `Verif.Props.Cycle`. -/

set_option autoImplicit false

namespace Ocb

theorem pyIdx_ok {α : Type*} {l : List α} {i : ℤ} (h0 : 0 ≤ i) (h1 : i < l.length) :
    ∃ a, l[i.toNat]? = some a ∧ pyIdx l i = .ok a := by
  have hlt : i.toNat < l.length := by omega
  refine ⟨l[i.toNat], List.getElem?_eq_getElem hlt, ?_⟩
  unfold pyIdx pyGet
  rw [if_pos h0, List.getElem?_eq_getElem hlt]

namespace Cycle

/-! ### selection -/

theorem rejects_false (op : String) (v bound : Fl ℚ) : rejects op v bound = false ↔ Passes op v bound := by
  unfold rejects Passes
  by_cases h1 : op = "min"
  · subst h1; simp
  by_cases h2 : op = "mineq"
  · subst h2; simp
  by_cases h3 : op = "equal"
  · subst h3; simp
  by_cases h4 : op = "maxeq"
  · subst h4; simp
  by_cases h5 : op = "max"
  · subst h5; simp
  simp [h1, h2, h3, h4, h5]

theorem critLoop_spec (b : Bnd) (hb : b.WF) (rec : ℤ) (h0 : 0 ≤ rec) (h1 : rec < b.records)
    (kw : List Criterion) (hk : ∀ c ∈ kw, (b.attr c.key).isSome) :
    ∃ r, critLoop b rec kw = .ok r ∧ (r = true ↔ ∀ c ∈ kw, ∀ vals, b.attr c.key = some vals →
      ∀ v, vals[rec.toNat]? = some v → Passes c.op v c.bound) := by
  induction kw with
  | nil => exact ⟨true, rfl, by simp⟩
  | cons c cs ih =>
    obtain ⟨r, hr, hr'⟩ := ih fun c' hc' => hk c' (by simp [hc'])
    obtain ⟨vals, hv⟩ := Option.isSome_iff_exists.1 (hk c (by simp))
    obtain ⟨a, ha, ha'⟩ := pyIdx_ok (l := vals) h0 (by rw [hb.2 _ _ hv]; exact h1)
    simp only [critLoop, hv, ha']
    cases hrej : rejects c.op a c.bound with
    | true =>
      refine ⟨false, by simp, ?_⟩
      constructor
      · simp
      · intro h
        have := (rejects_false c.op a c.bound).2 (h c (by simp) vals hv a ha)
        rw [hrej] at this; simp at this
    | false =>
      refine ⟨r, by simpa using hr, ?_⟩
      rw [hr']
      constructor
      · intro h c' hc' vals' hv' v' hv''
        rcases List.mem_cons.1 hc' with rfl | hc'
        · obtain rfl : vals = vals' := by rw [hv] at hv'; simpa using hv'
          obtain rfl : a = v' := by rw [ha] at hv''; simpa using hv''
          exact (rejects_false _ _ _).1 hrej
        · exact h c' hc' vals' hv' v' hv''
      · intro h c' hc'
        exact h c' (by simp [hc'])

theorem recordGood_spec (b : Bnd) (hb : b.WF) (mn mx : Fl ℚ) (rec : ℤ) (h0 : 0 ≤ rec) (h1 : rec < b.records)
    (kw : List Criterion) (hk : ∀ c ∈ kw, (b.attr c.key).isSome) :
    ∃ r, recordGood b mn mx kw rec = .ok r ∧ (r = true ↔ Good b mn mx kw rec) := by
  obtain ⟨r, hr, hr'⟩ := critLoop_spec b hb rec h0 h1 kw hk
  obtain ⟨a, ha, ha'⟩ := pyIdx_ok (l := b.fom) h0 (by rw [hb.1]; exact h1)
  unfold recordGood
  rw [hr]
  cases r with
  | false =>
    refine ⟨false, rfl, ?_⟩
    simp only [Bool.false_eq_true, false_iff] at hr' ⊢
    exact fun h => hr' h.2
  | true =>
    simp only [true_iff] at hr'
    refine ⟨Fl.le mn a && Fl.le a mx, by simp only [ha'], ?_⟩
    unfold Good
    simp only [Bool.and_eq_true]
    constructor
    · exact fun h => ⟨⟨a, ha, h⟩, hr'⟩
    · rintro ⟨⟨m, hm, h⟩, -⟩
      obtain rfl : a = m := by rw [ha] at hm; simpa using hm
      exact h

theorem scan_spec (b : Bnd) (hb : b.WF) (mn mx : Fl ℚ) (kw : List Criterion)
    (hk : ∀ c ∈ kw, (b.attr c.key).isSome) (rec : ℤ) (h0 : 0 ≤ rec) :
    ∃ r', scan b mn mx kw rec = .ok r' ∧ rec ≤ r' ∧ (rec ≤ b.records → r' ≤ b.records) ∧
      (∀ k, rec ≤ k → k < r' → k < b.records → ¬ Good b mn mx kw k) ∧
      (r' < b.records → Good b mn mx kw r') := by
  fun_induction scan b mn mx kw rec with
  | case1 rec hlt e hg =>
    obtain ⟨r, hr, -⟩ := recordGood_spec b hb mn mx rec h0 hlt kw hk
    rw [hg] at hr; simp at hr
  | case2 rec hlt hg =>
    obtain ⟨r, hr, hr'⟩ := recordGood_spec b hb mn mx rec h0 hlt kw hk
    rw [hg] at hr
    obtain rfl : r = true := by simpa using hr.symm
    exact ⟨rec, rfl, le_rfl, fun h => h, fun k h1 h2 => by omega, fun _ => hr'.1 rfl⟩
  | case3 rec hlt hg ih =>
    obtain ⟨r, hr, hr'⟩ := recordGood_spec b hb mn mx rec h0 hlt kw hk
    rw [hg] at hr
    obtain rfl : r = false := by simpa using hr.symm
    obtain ⟨r', e, h2, h3, h4, h5⟩ := ih (by omega)
    refine ⟨r', e, by omega, fun _ => h3 (by omega), fun k hk1 hk2 hk3 => ?_, h5⟩
    rcases eq_or_lt_of_le hk1 with rfl | h
    · intro hg'; have := hr'.2 hg'; simp at this
    · exact h4 k (by omega) hk2 hk3
  | case4 rec hlt => exact ⟨rec, rfl, le_rfl, fun h => h, fun k h1 h2 => by omega, fun h => absurd h hlt⟩

theorem knownKw_isSome (b : Bnd) (kw : List Criterion) : ∀ c ∈ knownKw b kw, (b.attr c.key).isSome := by
  intro c hc
  exact (List.mem_filter.1 hc).2

/-- Dropping the criteria with unknown attributes does not change what a good record is. -/
theorem good_knownKw (b : Bnd) (mn mx : Fl ℚ) (kw : List Criterion) (k : ℤ) :
    Good b mn mx (knownKw b kw) k ↔ Good b mn mx kw k := by
  unfold Good
  refine and_congr_right fun _ => ⟨fun h c hc vals hv => ?_, fun h c hc => h c (List.mem_filter.1 hc).1⟩
  exact h c (List.mem_filter.2 ⟨hc, by simp [hv]⟩) vals hv

/-! ### lawful cyclers -/

/-- The cycling method moves to the next record satisfying `good`, or to the end. -/
structure Lawful (c : Cycler) (good : ℤ → Prop) : Prop where
  next_ok : ∀ r, -1 ≤ r → r < c.records → ∃ r', c.next r = .ok r' ∧ r < r' ∧ r' ≤ c.records ∧
    (∀ k, r < k → k < r' → ¬ good k) ∧ (r' < c.records → good r')

theorem bnd_lawful (b : Bnd) (hb : b.WF) (mn mx : Option (Fl ℚ)) (kw : List Criterion) :
    Lawful (b.cycler mn mx kw) (Good b (mn.getD b.minFom) (mx.getD b.maxFom) kw) where
  next_ok := by
    intro r h0 h1
    obtain ⟨r', e, h2, h3, h4, h5⟩ := scan_spec b hb (mn.getD b.minFom) (mx.getD b.maxFom) (knownKw b kw)
      (knownKw_isSome b kw) (r + 1) (by omega)
    have hr : (b.cycler mn mx kw).records = b.records := rfl
    rw [hr] at h1 ⊢
    have h6 := h3 (by omega)
    refine ⟨r', e, by omega, h6, fun k hk1 hk2 hg => ?_, fun h => ?_⟩
    · exact h4 k (by omega) hk2 (by omega) ((good_knownKw _ _ _ _ _).2 hg)
    · exact (good_knownKw _ _ _ _ _).1 (h5 h)

theorem dual_lawful (times : List ℤ) (h : times ≠ []) : Lawful (dualCycler times) (fun _ => True) where
  next_ok := by
    intro r h0 h1
    have hr : (dualCycler times).records = times.length := rfl
    have hpos : 0 < (times.length : ℤ) := by
      have := List.length_pos_iff.2 h
      omega
    rw [hr] at h1 ⊢
    refine ⟨r + 1, ?_, by omega, by omega, fun k h2 h3 => by omega, fun _ => trivial⟩
    show Except.ok (dualNext times.length r) = _
    rw [dualNext, if_pos ⟨hpos, h1⟩]

/-! ### matching -/

/-- The time at index `r` (0 outside the list; only used inside it). -/
def tm (l : List ℤ) (r : ℤ) : ℤ := l.getD r.toNat 0

theorem tm_idx {l : List ℤ} {r : ℤ} (h0 : 0 ≤ r) (h1 : r < l.length) : pyIdx l r = .ok (tm l r) := by
  obtain ⟨a, ha, e⟩ := pyIdx_ok (l := l) h0 h1
  rw [e]; unfold tm; rw [List.getD_eq_getElem?_getD, ha]; rfl

theorem tm_some {l : List ℤ} {i : ℕ} {d : ℤ} (h : l[i]? = some d) : tm l i = d := by
  unfold tm
  rw [List.getD_eq_getElem?_getD]
  simp [h]

theorem natAbs_lt_iff (a b : ℤ) : a.natAbs < b.natAbs ↔ |a| < |b| := by
  rw [Int.abs_eq_natAbs, Int.abs_eq_natAbs]; omega

variable {c : Cycler} {good : ℤ → Prop}

theorem climb_spec (hl : Lawful c good) (t lastS lastI rec sd : ℤ)
    (h0 : 0 ≤ lastI) (h1 : lastI < c.records) (hS : lastS = tm c.times lastI - t) (h2 : lastI < rec)
    (h3 : rec ≤ c.records) (hgap : ∀ k, lastI < k → k < rec → ¬ good k)
    (hg : rec < c.records → good rec ∧ sd = tm c.times rec - t) (hex : rec = c.records → |lastS| ≤ |sd|) :
    ∃ r', climb c t lastS lastI rec sd = .ok r' ∧ lastI ≤ r' ∧ r' < c.records ∧ (r' = lastI ∨ good r') ∧
      |tm c.times r' - t| ≤ |lastS| ∧
      ((∀ a b, lastI ≤ a → a < b → b < c.records → (a = lastI ∨ good a) → good b → tm c.times a < tm c.times b) →
        ∀ k, lastI ≤ k → k < c.records → (k = lastI ∨ good k) → |tm c.times r' - t| ≤ |tm c.times k - t|) := by
  fun_induction climb c t lastS lastI rec sd with
  | case1 lastS lastI rec sd hlt e he =>
    rw [natAbs_lt_iff] at hlt
    have hr : rec < c.records := by
      by_contra hc
      have := hex (by omega)
      omega
    obtain ⟨r', e', -⟩ := hl.next_ok rec (by omega) hr
    rw [he] at e'; simp at e'
  | case2 lastS lastI rec sd hlt r' hn hr' e he =>
    rw [natAbs_lt_iff] at hlt
    have hr : rec < c.records := by
      by_contra hc
      have := hex (by omega)
      omega
    obtain ⟨r'', e', h4, -⟩ := hl.next_ok rec (by omega) hr
    rw [hn] at e'
    obtain rfl : r' = r'' := by simpa using e'
    rw [tm_idx (by omega) hr'] at he; simp at he
  | case3 lastS lastI rec sd hlt r' hn hr' tr he ih =>
    rw [natAbs_lt_iff] at hlt
    have hr : rec < c.records := by
      by_contra hc
      have := hex (by omega)
      omega
    obtain ⟨r'', e', h4, h5, h6, h7⟩ := hl.next_ok rec (by omega) hr
    rw [hn] at e'
    obtain rfl : r' = r'' := by simpa using e'
    rw [tm_idx (by omega) hr'] at he
    obtain rfl : tm c.times r' = tr := by simpa using he
    obtain ⟨hgr, hsd⟩ := hg hr
    obtain ⟨q, eq, g1, g2, g3, g4, g5⟩ := ih (by omega) hr hsd h4 h5 h6 (fun h => ⟨h7 h, rfl⟩) (fun h => by omega)
    refine ⟨q, eq, by omega, g2, ?_, by omega, ?_⟩
    · rcases g3 with rfl | g3
      · exact Or.inr hgr
      · exact Or.inr g3
    · intro hs k hk1 hk2 hk3
      have hs' : ∀ k, rec ≤ k → k < c.records → (k = rec ∨ good k) →
          |tm c.times q - t| ≤ |tm c.times k - t| :=
        g5 (fun a b ha hab hb hPa hPb => hs a b (by omega) hab hb (by
          rcases hPa with rfl | h
          · exact Or.inr hgr
          · exact Or.inr h) hPb)
      rcases hk3 with rfl | hk3
      · rw [hS] at hlt
        have := hs' rec le_rfl hr (Or.inl rfl)
        rw [hsd] at hlt
        omega
      · rcases lt_or_ge k rec with hk | hk
        · rcases eq_or_lt_of_le hk1 with rfl | hk'
          · rw [hS] at hlt
            have := hs' rec le_rfl hr (Or.inl rfl)
            rw [hsd] at hlt
            omega
          · exact absurd hk3 (hgap k hk' hk)
        · exact hs' k hk hk2 (Or.inr hk3)
  | case4 lastS lastI rec sd hlt r' hn hr' ih =>
    rw [natAbs_lt_iff] at hlt
    have hr : rec < c.records := by
      by_contra hc
      have := hex (by omega)
      omega
    obtain ⟨r'', e', h4, h5, h6, h7⟩ := hl.next_ok rec (by omega) hr
    rw [hn] at e'
    obtain rfl : r' = r'' := by simpa using e'
    obtain ⟨hgr, hsd⟩ := hg hr
    obtain ⟨q, eq, g1, g2, g3, g4, g5⟩ := ih (by omega) hr hsd h4 h5 h6 (fun h => absurd h hr') (fun h => le_rfl)
    refine ⟨q, eq, by omega, g2, ?_, by omega, ?_⟩
    · rcases g3 with rfl | g3
      · exact Or.inr hgr
      · exact Or.inr g3
    · intro hs k hk1 hk2 hk3
      have hs' : ∀ k, rec ≤ k → k < c.records → (k = rec ∨ good k) →
          |tm c.times q - t| ≤ |tm c.times k - t| :=
        g5 (fun a b ha hab hb hPa hPb => hs a b (by omega) hab hb (by
          rcases hPa with rfl | h
          · exact Or.inr hgr
          · exact Or.inr h) hPb)
      rcases hk3 with rfl | hk3
      · rw [hS] at hlt
        have := hs' rec le_rfl hr (Or.inl rfl)
        rw [hsd] at hlt
        omega
      · rcases lt_or_ge k rec with hk | hk
        · rcases eq_or_lt_of_le hk1 with rfl | hk'
          · rw [hS] at hlt
            have := hs' rec le_rfl hr (Or.inl rfl)
            rw [hsd] at hlt
            omega
          · exact absurd hk3 (hgap k hk' hk)
        · exact hs' k hk hk2 (Or.inr hk3)
  | case5 lastS lastI rec sd hlt =>
    rw [natAbs_lt_iff, not_lt] at hlt
    refine ⟨lastI, rfl, le_rfl, h1, Or.inl rfl, by rw [hS], ?_⟩
    intro hs k hk1 hk2 hk3
    rcases eq_or_lt_of_le hk1 with rfl | hk'
    · exact le_rfl
    · have hgk : good k := by
        rcases hk3 with rfl | h
        · omega
        · exact h
      have hrk : rec ≤ k := by
        by_contra hc
        exact hgap k hk' (by omega) hgk
      obtain ⟨hgr, hsd⟩ := hg (by omega)
      have h5 := hs lastI rec le_rfl h2 (by omega) (Or.inl rfl) hgr
      have h6 : tm c.times rec ≤ tm c.times k := by
        rcases eq_or_lt_of_le hrk with rfl | h
        · exact le_rfl
        · exact (hs rec k (by omega) h hk2 (Or.inr hgr) hgk).le
      rw [hS, hsd] at hlt
      have h7 : t ≤ tm c.times rec := by
        by_contra hc
        have e1 : |tm c.times lastI - t| = t - tm c.times lastI := by
          rw [abs_of_neg (by omega)]; omega
        have e2 : |tm c.times rec - t| = t - tm c.times rec := by
          rw [abs_of_neg (by omega)]; omega
        omega
      have e1 : |tm c.times rec - t| = tm c.times rec - t := abs_of_nonneg (by omega)
      have e2 : |tm c.times k - t| = tm c.times k - t := abs_of_nonneg (by omega)
      omega

theorem closest_spec (hl : Lawful c good) (t rec : ℤ) (h0 : 0 ≤ rec) (h1 : rec < c.records) :
    ∃ r', closest c t rec (tm c.times rec - t) = .ok r' ∧ rec ≤ r' ∧ r' < c.records ∧ (r' = rec ∨ good r') ∧
      |tm c.times r' - t| ≤ |tm c.times rec - t| ∧
      ((∀ a b, rec ≤ a → a < b → b < c.records → (a = rec ∨ good a) → good b → tm c.times a < tm c.times b) →
        ∀ k, rec ≤ k → k < c.records → (k = rec ∨ good k) → |tm c.times r' - t| ≤ |tm c.times k - t|) := by
  obtain ⟨r', e, h4, h5, h6, h7⟩ := hl.next_ok rec (by omega) h1
  unfold closest
  rw [e]
  simp only
  split
  · rename_i hr'
    rw [tm_idx (by omega) hr']
    exact climb_spec hl t _ rec r' _ h0 h1 rfl h4 h5 h6 (fun h => ⟨h7 h, rfl⟩) (fun h => by omega)
  · refine ⟨rec, rfl, le_rfl, h1, Or.inl rfl, le_rfl, ?_⟩
    intro hs k hk1 hk2 hk3
    rcases hk3 with rfl | hk3
    · exact le_rfl
    · rcases eq_or_lt_of_le hk1 with rfl | hk'
      · exact le_rfl
      · exact absurd hk3 (h6 k hk' (by omega))

/-- The moves of the main loop: from (datum, record) to (datum, record). -/
inductive Steps (c : Cycler) (dat : List ℤ) (tol : ℤ) : ℕ → ℤ → ℕ → ℤ → Prop where
  | refl (i : ℕ) (r : ℤ) : Steps c dat tol i r i r
  | cyc {i j : ℕ} {r r' s d : ℤ} : dat[i]? = some d → 0 ≤ r → r < c.records → tm c.times r - d < -tol →
      c.next r = .ok r' → Steps c dat tol i r' j s → Steps c dat tol i r j s
  | adv {i j : ℕ} {r s d : ℤ} : dat[i]? = some d → 0 ≤ r → r < c.records → tol < tm c.times r - d →
      Steps c dat tol (i + 1) r j s → Steps c dat tol i r j s

/-- How the main loop ends. -/
theorem mainLoop_steps (hl : Lawful c good) (dat : List ℤ) (tol : ℤ) (i : ℕ) (r : ℤ) (sd : Option ℤ)
    (h0 : 0 ≤ r) :
    ∃ j s, Steps c dat tol i r j s ∧ i ≤ j ∧ r ≤ s ∧
      ((∃ d r', dat[j]? = some d ∧ s < c.records ∧ |tm c.times s - d| ≤ tol ∧
          closest c d s (tm c.times s - d) = .ok r' ∧ mainLoop c dat tol i r sd = .ok (some j, r')) ∨
        ((dat.length ≤ j ∨ c.records ≤ s) ∧ ∃ sd', mainLoop c dat tol i r sd = afterLoop j s sd' tol ∧
          ((i = j ∧ r = s ∧ sd' = sd) ∨ ∃ x, sd' = some x ∧ tol < |x|))) := by
  fun_induction mainLoop c dat tol i r sd with
  | case1 i r sd hd =>
    exact ⟨i, r, .refl _ _, le_rfl, le_rfl, Or.inr ⟨Or.inl (List.getElem?_eq_none_iff.1 hd), sd, rfl,
      Or.inl ⟨rfl, rfl, rfl⟩⟩⟩
  | case2 i r sd d hd hr e he => rw [tm_idx h0 hr] at he; simp at he
  | case3 i r sd d hd hr tr ht s hs e he =>
    obtain ⟨r', e', -⟩ := hl.next_ok r (by omega) hr
    rw [he] at e'; simp at e'
  | case4 i r sd d hd hr tr ht s hs r' hn ih =>
    obtain ⟨r'', e', h4, -⟩ := hl.next_ok r (by omega) hr
    rw [hn] at e'
    obtain rfl : r' = r'' := by simpa using e'
    rw [tm_idx h0 hr] at ht
    obtain rfl : tm c.times r = tr := by simpa using ht
    obtain ⟨j, q, hst, g1, g2, g3⟩ := ih (by omega)
    refine ⟨j, q, .cyc hd h0 hr hs hn hst, g1, by omega, ?_⟩
    rcases g3 with g3 | ⟨g3, sd', g4, g5⟩
    · exact Or.inl g3
    · refine Or.inr ⟨g3, sd', g4, Or.inr ?_⟩
      rcases g5 with ⟨-, -, rfl⟩ | g5
      · refine ⟨_, rfl, ?_⟩
        have := neg_le_abs s
        omega
      · exact g5
  | case5 i r sd d hd hr tr ht s hs hs2 ih =>
    rw [tm_idx h0 hr] at ht
    obtain rfl : tm c.times r = tr := by simpa using ht
    obtain ⟨j, q, hst, g1, g2, g3⟩ := ih h0
    refine ⟨j, q, .adv hd h0 hr hs2 hst, by omega, by omega, ?_⟩
    rcases g3 with g3 | ⟨g3, sd', g4, g5⟩
    · exact Or.inl g3
    · refine Or.inr ⟨g3, sd', g4, Or.inr ?_⟩
      rcases g5 with ⟨-, -, rfl⟩ | g5
      · refine ⟨_, rfl, ?_⟩
        have := le_abs_self s
        omega
      · exact g5
  | case6 i r sd d hd hr tr ht s hs hs2 e he =>
    rw [tm_idx h0 hr] at ht
    obtain rfl : tm c.times r = tr := by simpa using ht
    obtain ⟨r', e', -⟩ := closest_spec hl d r h0 hr
    rw [he] at e'; simp at e'
  | case7 i r sd d hd hr tr ht s hs hs2 r' he =>
    rw [tm_idx h0 hr] at ht
    obtain rfl : tm c.times r = tr := by simpa using ht
    refine ⟨i, r, .refl _ _, le_rfl, le_rfl, Or.inl ⟨d, r', hd, hr, ?_, he, rfl⟩⟩
    rw [abs_le]; constructor <;> omega
  | case8 i r sd d hd hr =>
    exact ⟨i, r, .refl _ _, le_rfl, le_rfl, Or.inr ⟨Or.inr (by omega), sd, rfl, Or.inl ⟨rfl, rfl, rfl⟩⟩⟩

/-- Where the loop's record can be. -/
theorem Steps.rec_good (hl : Lawful c good) {dat : List ℤ} {tol : ℤ} {i j : ℕ} {r s : ℤ}
    (h : Steps c dat tol i r j s) : i ≤ j ∧ r ≤ s ∧ (s = r ∨ c.records ≤ s ∨ good s) ∧
      (r ≤ c.records → s ≤ c.records) ∧ (i ≤ dat.length → j ≤ dat.length) := by
  induction h with
  | refl => exact ⟨le_rfl, le_rfl, Or.inl rfl, id, id⟩
  | @cyc i j r r' s d hd h0 h1 h2 hn _ ih =>
    obtain ⟨r'', e', h4, h5, h6, h7⟩ := hl.next_ok r (by omega) h1
    rw [hn] at e'
    obtain rfl : r' = r'' := by simpa using e'
    refine ⟨ih.1, by omega, ?_, fun _ => ih.2.2.2.1 h5, ih.2.2.2.2⟩
    rcases ih.2.2.1 with rfl | h
    · rcases lt_or_ge s c.records with h | h
      · exact Or.inr (Or.inr (h7 h))
      · exact Or.inr (Or.inl h)
    · exact Or.inr h
  | @adv i j r s d hd h0 h1 h2 _ ih =>
    have : i < dat.length := (List.getElem?_eq_some_iff.1 hd).1
    exact ⟨by omega, ih.2.1, ih.2.2.1, ih.2.2.2.1, fun _ => ih.2.2.2.2 (by omega)⟩

/-- Sorted data and sorted candidate records: nothing matchable is passed over. -/
theorem Steps.sound (hl : Lawful c good) {dat : List ℤ} {tol : ℤ}
    (hD : ∀ a b : ℕ, a ≤ b → b < dat.length → tm dat a ≤ tm dat b) {i j : ℕ} {r s : ℤ}
    (h : Steps c dat tol i r j s)
    (hT : ∀ a b, r ≤ a → a ≤ b → b < c.records → (a = r ∨ good a) → (b = r ∨ good b) →
      tm c.times a ≤ tm c.times b) :
    (∀ k, r ≤ k → k < s → k < c.records → (k = r ∨ good k) → ∀ j' : ℕ, j ≤ j' → j' < dat.length →
        tm c.times k < tm dat j' - tol) ∧
      (∀ i' : ℕ, i ≤ i' → i' < j → i' < dat.length → ∀ k, r ≤ k → k < c.records → (k = r ∨ good k) →
        tol < |tm c.times k - tm dat i'|) := by
  induction h with
  | refl => exact ⟨fun k h1 h2 => by omega, fun i' h1 h2 => by omega⟩
  | @cyc i j r r' s d hd h0 h1 h2 hn hst ih =>
    obtain ⟨r'', e', h4, h5, h6, h7⟩ := hl.next_ok r (by omega) h1
    rw [hn] at e'
    obtain rfl : r' = r'' := by simpa using e'
    have hij := (hst.rec_good hl).1
    have hdi : tm dat i = d := tm_some hd
    obtain ⟨ihA, ihB⟩ := ih (fun a b ha hab hb hPa hPb => hT a b (by omega) hab hb
      (by
        rcases hPa with rfl | h
        · exact Or.inr (h7 (by omega))
        · exact Or.inr h)
      (by
        rcases hPb with rfl | h
        · exact Or.inr (h7 (by omega))
        · exact Or.inr h))
    constructor
    · intro k hk1 hk2 hk3 hPk j' hj1 hj2
      rcases eq_or_lt_of_le hk1 with rfl | hk'
      · have := hD i j' (by omega) hj2
        omega
      · have hgk : good k := by
          rcases hPk with rfl | h
          · omega
          · exact h
        have : r' ≤ k := by
          by_contra hc
          exact h6 k hk' (by omega) hgk
        exact ihA k this hk2 hk3 (Or.inr hgk) j' hj1 hj2
    · intro i' hi1 hi2 hi3 k hk1 hk2 hPk
      rcases eq_or_lt_of_le hk1 with rfl | hk'
      · have h8 := hD i i' hi1 hi3
        have h9 := neg_le_abs (tm c.times r - tm dat i')
        omega
      · have hgk : good k := by
          rcases hPk with rfl | h
          · omega
          · exact h
        have : r' ≤ k := by
          by_contra hc
          exact h6 k hk' (by omega) hgk
        exact ihB i' hi1 hi2 hi3 k this hk2 (Or.inr hgk)
  | @adv i j r s d hd h0 h1 h2 hst ih =>
    have hdi : tm dat i = d := tm_some hd
    obtain ⟨ihA, ihB⟩ := ih hT
    refine ⟨ihA, ?_⟩
    intro i' hi1 hi2 hi3 k hk1 hk2 hPk
    rcases eq_or_lt_of_le hi1 with rfl | hi'
    · have h8 := hT r k le_rfl hk1 hk2 (Or.inl rfl) hPk
      have h9 := le_abs_self (tm c.times k - tm dat i)
      omega
    · exact ihB i' (by omega) hi2 hi3 k hk1 hk2 hPk

theorem skipLoop_spec (dat : List ℤ) (first : ℤ) (i : ℕ) :
    (∀ j, skipLoop dat first i = some j → i ≤ j ∧ j < dat.length ∧ first ≤ tm dat j ∧
      ∀ k : ℕ, i ≤ k → k < j → tm dat k < first) ∧
    (skipLoop dat first i = none → ∀ k : ℕ, i ≤ k → k < dat.length → tm dat k < first) := by
  fun_induction skipLoop dat first i with
  | case1 i d hd hlt ih =>
    have hdi : tm dat i = d := tm_some hd
    constructor
    · intro j hj
      obtain ⟨h1, h2, h3, h4⟩ := ih.1 j hj
      refine ⟨by omega, h2, h3, fun k hk1 hk2 => ?_⟩
      rcases eq_or_lt_of_le hk1 with rfl | h
      · omega
      · exact h4 k (by omega) hk2
    · intro h k hk1 hk2
      rcases eq_or_lt_of_le hk1 with rfl | h'
      · omega
      · exact ih.2 h k (by omega) hk2
  | case2 i d hd hlt =>
    have hdi : tm dat i = d := tm_some hd
    constructor
    · rintro j hj
      obtain rfl : i = j := by simpa using hj
      exact ⟨le_rfl, (List.getElem?_eq_some_iff.1 hd).1, by omega, fun k h1 h2 => by omega⟩
    · intro h; simp at h
  | case3 i hd =>
    constructor
    · intro j hj; simp at hj
    · intro _ k h1 h2
      have := List.getElem?_eq_none_iff.1 hd
      omega

theorem IsBoundary.lawful {c : Cycler} {good : ℤ → Prop} (h : IsBoundary c good) : Lawful c good := by
  cases h with
  | ocb b mn mx kw hb => exact bnd_lawful b hb mn mx kw
  | dual times ht => exact dual_lawful times ht

theorem at_tm {l : List ℤ} {k : ℤ} (h0 : 0 ≤ k) (h1 : k < l.length) : At l k (tm l k) := by
  obtain ⟨a, ha, -⟩ := pyIdx_ok (l := l) h0 h1
  refine ⟨h0, ?_⟩
  unfold tm; rw [List.getD_eq_getElem?_getD, ha]; rfl

theorem at_eq {l : List ℤ} {k t : ℤ} (h : At l k t) : 0 ≤ k ∧ k < l.length ∧ t = tm l k := by
  obtain ⟨h0, h1⟩ := h
  have hlt : k.toNat < l.length := (List.getElem?_eq_some_iff.1 h1).1
  refine ⟨h0, by omega, ?_⟩
  unfold tm; rw [List.getD_eq_getElem?_getD, h1]; rfl

theorem get_tm {l : List ℤ} {i : ℕ} (h : i < l.length) : l[i]? = some (tm l i) := by
  unfold tm; rw [List.getD_eq_getElem?_getD]; simp [h]

theorem nondec_tm {l : List ℤ} {p : ℤ → Prop} (h : NondecOn l p) :
    ∀ a b : ℤ, 0 ≤ a → a ≤ b → b < l.length → p a → p b → tm l a ≤ tm l b :=
  fun a b h0 h1 h2 pa pb => h a b _ _ h1 pa pb (at_tm h0 (by omega)) (at_tm (by omega) h2)

theorem strict_tm {l : List ℤ} {p : ℤ → Prop} (h : StrictOn l p) :
    ∀ a b : ℤ, 0 ≤ a → a < b → b < l.length → p a → p b → tm l a < tm l b :=
  fun a b h0 h1 h2 pa pb => h a b _ _ h1 pa pb (at_tm h0 (by omega)) (at_tm (by omega) h2)

theorem pairwise_tm {l : List ℤ} (h : l.Pairwise (· ≤ ·)) (a b : ℕ) (hab : a ≤ b) (hb : b < l.length) :
    tm l a ≤ tm l b := by
  rcases eq_or_lt_of_le hab with rfl | hab
  · exact le_rfl
  · rw [tm_some (List.getElem?_eq_getElem (by omega : a < l.length)), tm_some (List.getElem?_eq_getElem hb)]
    exact List.pairwise_iff_getElem.1 h a b (by omega) hb hab

theorem mainLoop_hit {dat : List ℤ} {tol d tr r' : ℤ} {i : ℕ} {rec : ℤ} {sd : Option ℤ} (hd : dat[i]? = some d)
    (hr : rec < c.records) (ht : pyIdx c.times rec = .ok tr) (h1 : ¬ tr - d < -tol) (h2 : ¬ tr - d > tol)
    (hc : closest c d rec (tr - d) = .ok r') : mainLoop c dat tol i rec sd = .ok (some i, r') := by
  rw [mainLoop]
  split
  · simp_all
  · rename_i d' hd'
    obtain rfl : d = d' := by rw [hd] at hd'; simpa using hd'
    rw [dif_pos hr]
    split
    · simp_all
    · rename_i tr' ht'
      obtain rfl : tr = tr' := by rw [ht] at ht'; simpa using ht'
      simp only
      rw [if_neg h1, if_neg h2, hc]

/-- Everything `match_data_ocb` guarantees, in one statement. -/
inductive MatchOut (c : Cycler) (good : ℤ → Prop) (rec : ℤ) (dat : List ℤ) (idat : ℕ) (tol : ℤ) :
    Option ℕ → ℤ → Prop where
  | hit (i : ℕ) (r' : ℤ) (h1 : idat ≤ i) (h2 : i < dat.length) (h3 : 0 ≤ r') (h4 : r' < c.records)
      (h5 : Cand good rec r') (h6 : |tm c.times r' - tm dat i| ≤ tol)
      (h7 : dat.Pairwise (· ≤ ·) → NondecOn c.times (Cand good rec) → ∀ j : ℕ, idat ≤ j → j < i →
        ∀ k, 0 ≤ k → k < c.records → Cand good rec k → tol < |tm c.times k - tm dat j|)
      (h8 : dat.Pairwise (· ≤ ·) → StrictOn c.times (Cand good rec) →
        ∀ k, 0 ≤ k → k < c.records → Cand good rec k → |tm c.times r' - tm dat i| ≤ |tm c.times k - tm dat i|) :
      MatchOut c good rec dat idat tol (some i) r'
  | over (i : ℕ) (r' : ℤ) (h0 : rec ≤ r') (h1 : idat ≤ i) (h2 : dat.length ≤ i ∨ c.records ≤ r')
      (h3 : dat.Pairwise (· ≤ ·) → NondecOn c.times (Cand good rec) → ∀ j : ℕ, idat ≤ j → j < dat.length →
        ∀ k, 0 ≤ k → k < c.records → Cand good rec k → tol < |tm c.times k - tm dat j|)
      (h4 : i = 0 → dat.length = 0 ∨ ∀ k, 0 ≤ k → k < c.records → ¬ Cand good rec k)
      (h5 : idat < i → ∃ k, 0 ≤ k ∧ k < c.records ∧ Cand good rec k ∧ tm dat idat < tm c.times k - tol)
      (h6 : rec = -1 → idat < dat.length → ∀ f, 0 ≤ f → f < c.records → good f → (∀ k, 0 ≤ k → k < f → ¬ good k) →
        ∃ j : ℕ, idat ≤ j ∧ j < dat.length ∧ tm c.times f - tol ≤ tm dat j) :
      MatchOut c good rec dat idat tol (some i) r'
  | early (r' : ℤ) (h0 : rec = -1) (h1 : 0 ≤ r') (h2 : r' < c.records) (h3 : good r')
      (h4 : ∀ k, 0 ≤ k → k < r' → ¬ good k)
      (h5 : ∀ j : ℕ, idat ≤ j → j < dat.length → tm dat j < tm c.times r' - tol) :
      MatchOut c good rec dat idat tol none r'
  | late (r' : ℤ) (h0 : rec ≤ r') (h1 : idat = 0) (h2 : c.records ≤ r') (hn : 0 < dat.length)
      (he : ∃ k, 0 ≤ k ∧ k < c.records ∧ Cand good rec k)
      (h3 : ∀ k, 0 ≤ k → k < c.records → Cand good rec k → tm c.times k < tm dat 0 - tol) :
      MatchOut c good rec dat idat tol none r'

theorem Steps.cyc_only (hl : Lawful c good) {dat : List ℤ} {tol : ℤ} {i j : ℕ} {r s : ℤ}
    (h : Steps c dat tol i r j s) (hij : i = j) :
    ∀ k, r ≤ k → k < s → k < c.records → (k = r ∨ good k) → tm c.times k < tm dat i - tol := by
  induction h with
  | refl => intro k h1 h2; omega
  | @cyc i j r r' s d hd h0 h1 h2 hn hst ih =>
    obtain ⟨r'', e', h4, h5, h6, h7⟩ := hl.next_ok r (by omega) h1
    rw [hn] at e'
    obtain rfl : r' = r'' := by simpa using e'
    intro k hk1 hk2 hk3 hPk
    have hdi : tm dat i = d := tm_some hd
    rcases eq_or_lt_of_le hk1 with rfl | hk'
    · omega
    · have hgk : good k := by
        rcases hPk with rfl | h
        · omega
        · exact h
      have : r' ≤ k := by
        by_contra hc
        exact h6 k hk' (by omega) hgk
      exact ih hij k this hk2 hk3 (Or.inr hgk)
  | @adv i j r s d hd h0 h1 h2 hst ih =>
    have := (hst.rec_good hl).1
    omega

theorem Steps.adv_exists (hl : Lawful c good) {dat : List ℤ} {tol : ℤ} {i j : ℕ} {r s : ℤ}
    (h : Steps c dat tol i r j s) (hij : i < j) :
    ∃ k, r ≤ k ∧ k < c.records ∧ (k = r ∨ good k) ∧ tm dat i < tm c.times k - tol := by
  induction h with
  | refl => omega
  | @cyc i j r r' s d hd h0 h1 h2 hn hst ih =>
    obtain ⟨r'', e', h4, h5, h6, h7⟩ := hl.next_ok r (by omega) h1
    rw [hn] at e'
    obtain rfl : r' = r'' := by simpa using e'
    obtain ⟨k, k1, k2, k3, k4⟩ := ih hij
    refine ⟨k, by omega, k2, Or.inr ?_, k4⟩
    rcases k3 with rfl | k3
    · exact h7 k2
    · exact k3
  | @adv i j r s d hd h0 h1 h2 hst ih =>
    have hdi : tm dat i = d := tm_some hd
    exact ⟨r, le_rfl, h1, Or.inl rfl, by omega⟩

/-- The main loop entered with a valid cursor. -/
theorem mainLoop_out (hl : Lawful c good) (dat : List ℤ) (tol : ℤ) (i : ℕ) (r : ℤ)
    (h0 : 0 ≤ r) (h1 : i < dat.length) (h2 : r < c.records) :
    ∃ out r', mainLoop c dat tol i r none = .ok (out, r') ∧ MatchOut c good r dat i tol out r' := by
  obtain ⟨j, s, hst, hij, hrs, h⟩ := mainLoop_steps hl dat tol i r none h0
  obtain ⟨-, -, g3, g4, g5⟩ := hst.rec_good hl
  have hT : NondecOn c.times (Cand good r) → ∀ a b, r ≤ a → a ≤ b → b < c.records → (a = r ∨ good a) →
      (b = r ∨ good b) → tm c.times a ≤ tm c.times b :=
    fun h a b ha hab hb pa pb => nondec_tm h a b (by omega) hab hb ⟨ha, pa⟩ ⟨by omega, pb⟩
  have hSN : StrictOn c.times (Cand good r) → NondecOn c.times (Cand good r) := by
    intro h a b x y hab pa pb ha hb
    rcases eq_or_lt_of_le hab with rfl | hab
    · obtain ⟨-, -, rfl⟩ := at_eq ha
      obtain ⟨-, -, rfl⟩ := at_eq hb
      exact le_rfl
    · exact (h a b x y hab pa pb ha hb).le
  rcases h with ⟨d, r', hd, hs, htol, hc, e⟩ | ⟨hend, sd', e, hsd⟩
  · refine ⟨_, _, e, ?_⟩
    have hdj : tm dat j = d := tm_some hd
    obtain ⟨r'', e', k1, k2, k3, k4, k5⟩ := closest_spec hl d s (by omega) hs
    rw [hc] at e'
    obtain rfl : r' = r'' := by simpa using e'
    have hsg : s = r ∨ good s := by
      rcases g3 with h | h | h
      · exact Or.inl h
      · omega
      · exact Or.inr h
    refine .hit j r' hij (List.getElem?_eq_some_iff.1 hd).1 (by omega) k2 ⟨by omega, ?_⟩ (by rw [hdj]; omega) ?_ ?_
    · rcases k3 with rfl | k3
      · exact hsg
      · exact Or.inr k3
    · intro hD hN i' hi1 hi2 k hk0 hk1 hk2
      have hlt := (List.getElem?_eq_some_iff.1 hd).1
      exact (hst.sound hl (fun a b => pairwise_tm hD a b) (hT hN)).2 i' hi1 hi2 (by omega) k hk2.1 hk1 hk2.2
    · intro hD hS k hk0 hk1 hk2
      have hlt := (List.getElem?_eq_some_iff.1 hd).1
      rcases lt_or_ge k s with hks | hks
      · have := (hst.sound hl (fun a b => pairwise_tm hD a b) (hT (hSN hS))).1 k hk2.1 hks hk1 hk2.2 j le_rfl hlt
        have h9 := neg_le_abs (tm c.times k - tm dat j)
        rw [hdj] at *
        omega
      · rw [hdj]
        refine k5 ?_ k hks hk1 ?_
        · intro a b ha hab hb pa pb
          refine strict_tm hS a b (by omega) hab hb ⟨by omega, ?_⟩ ⟨by omega, Or.inr pb⟩
          rcases pa with rfl | pa
          · exact hsg
          · exact Or.inr pa
        · rcases hk2.2 with rfl | h
          · left; omega
          · exact Or.inr h
  · have hno : dat.Pairwise (· ≤ ·) → NondecOn c.times (Cand good r) → ∀ j : ℕ, i ≤ j → j < dat.length →
        ∀ k, 0 ≤ k → k < c.records → Cand good r k → tol < |tm c.times k - tm dat j| := by
      intro hD hN j' hj1 hj2 k hk0 hk1 hk2
      obtain ⟨sA, sB⟩ := hst.sound hl (fun a b => pairwise_tm hD a b) (hT hN)
      rcases lt_or_ge j' j with hlt | hge
      · exact sB j' hj1 hlt hj2 k hk2.1 hk1 hk2.2
      · rcases hend with hend | hend
        · omega
        · have := sA k hk2.1 (by omega) hk1 hk2.2 j' hge hj2
          have h9 := neg_le_abs (tm c.times k - tm dat j')
          omega
    have hsd2 : ∃ x, sd' = some x ∧ tol < |x| := by
      rcases hsd with ⟨rfl, rfl, -⟩ | h
      · omega
      · exact h
    obtain ⟨x, rfl, hx⟩ := hsd2
    rw [e]
    unfold afterLoop
    split
    · rename_i hj0
      have hx' : (x.natAbs : ℤ) > tol := by rw [Int.abs_eq_natAbs] at hx; exact hx
      simp only [if_pos hx']
      clear hx hx' hsd
      have hi0 : i = 0 := by omega
      have hrec : c.records ≤ s := by omega
      refine ⟨_, _, rfl, .late s hrs hi0 hrec (by omega) ⟨r, h0, h2, le_rfl, Or.inl rfl⟩ ?_⟩
      intro k hk0 hk1 hk2
      have := hst.cyc_only hl (by omega) k hk2.1 (by omega) hk1 hk2.2
      rw [hi0] at this
      exact_mod_cast this
    · refine ⟨_, _, rfl, .over j s hrs hij hend hno (fun h => by omega) ?_ (fun h => by omega)⟩
      intro hlt
      obtain ⟨k, k1, k2, k3, k4⟩ := hst.adv_exists hl hlt
      exact ⟨k, by omega, k2, ⟨k1, k3⟩, k4⟩

theorem cand_first {r : ℤ} (hgap : ∀ k, -1 < k → k < r → ¬ good k) (hr : good r) {k : ℤ} (h0 : 0 ≤ k) :
    Cand good (-1) k ↔ Cand good r k := by
  constructor
  · rintro ⟨h1, h2 | h2⟩
    · omega
    · refine ⟨?_, Or.inr h2⟩
      by_contra hc
      exact hgap k (by omega) (by omega) h2
  · rintro ⟨h1, rfl | h2⟩
    · exact ⟨by omega, Or.inr hr⟩
    · exact ⟨by omega, Or.inr h2⟩

/-- The whole of `match_data_ocb`. -/
theorem matchData_out (hl : Lawful c good) (rec : ℤ) (dat : List ℤ) (idat : ℕ) (tol : ℤ) (h0 : -1 ≤ rec)
    (htol : 0 ≤ tol) :
    ∃ out r', matchData c rec dat idat tol = .ok (out, r') ∧ MatchOut c good rec dat idat tol out r' := by
  unfold matchData
  split
  · rename_i h
    exact ⟨_, _, rfl, .over idat rec le_rfl le_rfl (Or.inl h) (fun _ _ j h1 h2 => by omega)
      (fun h => by omega) (fun h => by omega) (fun _ h => by omega)⟩
  split
  · rename_i h
    exact ⟨_, _, rfl, .over idat rec le_rfl le_rfl (Or.inr h) (fun _ _ j _ _ k h1 h2 h3 => by have := h3.1; omega)
      (fun _ => Or.inr (fun k h1 h2 h3 => by have := h3.1; omega)) (fun h => by omega)
      (fun _ _ f h1 h2 => by omega)⟩
  split
  · rename_i hi hr hneg
    obtain ⟨r', e, h4, h5, h6, h7⟩ := hl.next_ok rec h0 (by omega)
    obtain rfl : rec = -1 := by omega
    rw [e]
    simp only
    split
    · rename_i hr'
      have hno : ∀ k, 0 ≤ k → k < c.records → ¬ Cand good (-1) k := by
        intro k h1 h2 h3
        rcases h3.2 with h | h
        · omega
        · exact absurd h (h6 k (by omega) (by omega))
      refine ⟨_, _, rfl, .over idat r' (by omega) le_rfl (Or.inr hr')
        (fun _ _ j _ _ k h1 h2 h3 => absurd h3 (hno k h1 h2)) (fun _ => Or.inr hno) (fun h => by omega)
        (fun _ _ f h1 h2 h3 => absurd ⟨by omega, Or.inr h3⟩ (hno f h1 h2))⟩
    · rename_i hr'
      have hg := h7 (by omega)
      rw [tm_idx (by omega) (by unfold Cycler.records at *; omega)]
      simp only
      obtain ⟨sk1, sk2⟩ := skipLoop_spec dat (tm c.times r' - tol) idat
      split
      · rename_i hs
        exact ⟨_, _, rfl, .early r' rfl (by omega) (by omega) hg (fun k h1 h2 => h6 k (by omega) h2) (sk2 hs)⟩
      · rename_i i hs
        obtain ⟨s1, s2, s3, s4⟩ := sk1 i hs
        have hskip : NondecOn c.times (Cand good (-1)) → ∀ j : ℕ, idat ≤ j → j < i →
            ∀ k, 0 ≤ k → k < c.records → Cand good (-1) k → tol < |tm c.times k - tm dat j| := by
          intro hN j hj1 hj2 k hk0 hk1 hk2
          have hk3 := (cand_first h6 hg hk0).1 hk2
          have := nondec_tm hN r' k (by omega) hk3.1 hk1 ⟨by omega, Or.inr hg⟩ hk2
          have h8 := s4 j hj1 hj2
          have h9 := le_abs_self (tm c.times k - tm dat j)
          omega
        split
        · rename_i heq
          have hde : tm dat i = tm c.times r' := tm_some heq
          refine ⟨_, _, rfl, .hit i r' s1 s2 (by omega) (by omega) ⟨by omega, Or.inr hg⟩ ?_ (fun _ => hskip) ?_⟩
          · rw [hde]; simpa using htol
          · intro _ _ k _ _ _
            rw [hde]; simpa using abs_nonneg _
        · obtain ⟨out, q, e', hm⟩ := mainLoop_out hl dat tol i r' (by omega) s2 (by omega)
          refine ⟨out, q, e', ?_⟩
          have hN' : NondecOn c.times (Cand good (-1)) → NondecOn c.times (Cand good r') := by
            intro h a b x y hab pa pb ha hb
            exact h a b x y hab ((cand_first h6 hg ha.1).2 pa) ((cand_first h6 hg hb.1).2 pb) ha hb
          have hS' : StrictOn c.times (Cand good (-1)) → StrictOn c.times (Cand good r') := by
            intro h a b x y hab pa pb ha hb
            exact h a b x y hab ((cand_first h6 hg ha.1).2 pa) ((cand_first h6 hg hb.1).2 pb) ha hb
          cases hm with
          | hit i' q a1 a2 a3 a4 a5 a6 a7 a8 =>
            refine .hit i' q (by omega) a2 a3 a4 ((cand_first h6 hg a3).2 a5) a6 ?_ ?_
            · intro hD hN j hj1 hj2 k hk0 hk1 hk2
              rcases lt_or_ge j i with hji | hji
              · exact hskip hN j hj1 hji k hk0 hk1 hk2
              · exact a7 hD (hN' hN) j hji hj2 k hk0 hk1 ((cand_first h6 hg hk0).1 hk2)
            · intro hD hS k hk0 hk1 hk2
              exact a8 hD (hS' hS) k hk0 hk1 ((cand_first h6 hg hk0).1 hk2)
          | over i' q a0 a1 a2 a3 b4 b5 b6 =>
            refine .over i' q (by omega) (by omega) a2 ?_ ?_ ?_ ?_
            rotate_left
            · intro hi0
              rcases b4 hi0 with h | h
              · omega
              · exact absurd ⟨le_rfl, Or.inl rfl⟩ (h r' (by omega) (by omega))
            · intro hlt
              rcases lt_or_ge idat i with hii | hii
              · exact ⟨r', by omega, by omega, ⟨by omega, Or.inr hg⟩, s4 idat le_rfl hii⟩
              · obtain rfl : i = idat := by omega
                obtain ⟨k, k1, k2, k3, k4⟩ := b5 hlt
                exact ⟨k, k1, k2, (cand_first h6 hg k1).2 k3, k4⟩
            · intro _ _ f f0 f1 f2 f3
              have : f = r' := by
                by_contra hne
                rcases lt_or_gt_of_ne hne with h | h
                · exact h6 f (by omega) h f2
                · exact f3 r' (by omega) h hg
              subst this
              exact ⟨i, s1, s2, by omega⟩
            intro hD hN j hj1 hj2 k hk0 hk1 hk2
            rcases lt_or_ge j i with hji | hji
            · exact hskip hN j hj1 hji k hk0 hk1 hk2
            · exact a3 hD (hN' hN) j hji hj2 k hk0 hk1 ((cand_first h6 hg hk0).1 hk2)
          | early q a0 => omega
          | late q a0 a1 a2 an ae a3 =>
            obtain ⟨k0, b1, b2, b3⟩ := ae
            refine .late q (by omega) (by omega) a2 an ⟨k0, b1, b2, (cand_first h6 hg b1).2 b3⟩ ?_
            intro k hk0 hk1 hk2
            exact a3 k hk0 hk1 ((cand_first h6 hg hk0).1 hk2)
  · rename_i hi hr hneg
    rw [tm_idx (by omega) (by unfold Cycler.records at *; omega)]
    simp only
    split
    · rename_i heq
      have hde : tm dat idat = tm c.times rec := tm_some heq
      refine ⟨_, _, rfl, .hit idat rec le_rfl (by omega) (by omega) (by omega) ⟨le_rfl, Or.inl rfl⟩ ?_
        (fun _ _ j h1 h2 => by omega) ?_⟩
      · rw [hde]; simpa using htol
      · intro _ _ k _ _ _
        rw [hde]; simpa using abs_nonneg _
    · exact mainLoop_out hl dat tol idat rec (by omega) (by omega) (by omega)

end Cycle

end Ocb
