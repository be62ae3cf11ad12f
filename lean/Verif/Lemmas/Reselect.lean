import Verif.Model.Reselect
import Verif.Props.Pairs

/-! Helper lemmas for `Verif.Props.Reselect`: a search from the first pair and a search from the pair of the last datum
give the same. -/

set_option autoImplicit false

namespace Ocb.Reselect

open Ocb.Cycle

variable {ts : List ℤ}

theorem dual_next {r : ℤ} (h0 : 0 ≤ r) (h1 : r < ts.length) : (dualCycler ts).next r = .ok (r + 1) := by
  show Except.ok (dualNext ts.length r) = _
  rw [dualNext, if_pos ⟨by omega, h1⟩]

theorem dual_records : (dualCycler ts).records = ts.length := rfl

theorem dual_times : (dualCycler ts).times = ts := rfl

/-- The search for the closest record, one step at a time. -/
theorem closest_step (d r : ℤ) (h0 : 0 ≤ r) (h1 : r < ts.length) :
    closest (dualCycler ts) d r (tm ts r - d) =
      if r + 1 < ts.length ∧ |tm ts (r + 1) - d| < |tm ts r - d| then
        closest (dualCycler ts) d (r + 1) (tm ts (r + 1) - d)
      else .ok r := by
  rw [closest, dual_next h0 h1]
  simp only []
  by_cases h2 : r + 1 < ts.length
  · rw [if_pos (show r + 1 < (dualCycler ts).records from h2), dual_times, tm_idx (by omega) h2]
    simp only []
    rw [climb]
    by_cases h3 : |tm ts (r + 1) - d| < |tm ts r - d|
    · rw [if_pos ((natAbs_lt_iff _ _).2 h3), if_pos ⟨h2, h3⟩, closest, dual_next (by omega) h2]
      simp only []
      by_cases h4 : r + 1 + 1 < ts.length
      · rw [if_pos (show r + 1 + 1 < (dualCycler ts).records from h4),
          if_pos (show r + 1 + 1 < (dualCycler ts).records from h4)]
      · rw [if_neg (show ¬ r + 1 + 1 < (dualCycler ts).records from h4), climb, if_neg (by omega),
          if_neg (show ¬ r + 1 + 1 < (dualCycler ts).records from h4)]
    · rw [if_neg (fun h => h3 ((natAbs_lt_iff _ _).1 h)), if_neg (fun h => h3 h.2)]
  · rw [if_neg (show ¬ r + 1 < (dualCycler ts).records from h2), if_neg (fun h => h2 h.1)]

/-- Each record of the stretch is followed by a later one that is closer to `d` and to everything after `d`. -/
def Dec (ts : List ℤ) (d a b : ℤ) : Prop := ∀ k, a ≤ k → k < b → tm ts k < tm ts (k + 1) ∧ tm ts k + tm ts (k + 1) < 2 * d

theorem Dec.mono {d e a b : ℤ} (h : Dec ts d a b) (hde : d ≤ e) : Dec ts e a b :=
  fun k h1 h2 => ⟨(h k h1 h2).1, by have := (h k h1 h2).2; omega⟩

theorem closer_iff {x y d : ℤ} (hxy : x ≤ y) : |y - d| < |x - d| ↔ x < y ∧ x + y < 2 * d := by
  constructor
  · intro h
    rcases abs_cases (y - d) with ⟨h1, h2⟩ | ⟨h1, h2⟩ <;> rcases abs_cases (x - d) with ⟨h3, h4⟩ | ⟨h3, h4⟩ <;> omega
  · intro h
    rcases abs_cases (y - d) with ⟨h1, h2⟩ | ⟨h1, h2⟩ <;> rcases abs_cases (x - d) with ⟨h3, h4⟩ | ⟨h3, h4⟩ <;> omega

/-- The times do not decrease. -/
def Nondec (ts : List ℤ) : Prop := ∀ a b : ℤ, 0 ≤ a → a ≤ b → b < ts.length → tm ts a ≤ tm ts b

theorem nondec_of (h : ts.Pairwise (· ≤ ·)) : Nondec ts := by
  intro a b h0 h1 h2
  have := pairwise_tm h a.toNat b.toNat (by omega) (by omega)
  rwa [Int.toNat_of_nonneg h0, Int.toNat_of_nonneg (by omega)] at this

theorem closest_skip (hN : Nondec ts) (d : ℤ) (n : ℕ) : ∀ a b : ℤ, b - a = n → 0 ≤ a → b < ts.length → Dec ts d a b →
    closest (dualCycler ts) d a (tm ts a - d) = closest (dualCycler ts) d b (tm ts b - d) := by
  induction n with
  | zero =>
    intro a b h _ _ _
    obtain rfl : a = b := by omega
    rfl
  | succ n ih =>
    intro a b h h0 h1 hd
    rw [closest_step d a h0 (by omega), if_pos ⟨by omega, (closer_iff (hN a (a + 1) h0 (by omega) (by omega))).2
      (hd a le_rfl (by omega))⟩]
    exact ih (a + 1) b (by omega) (by omega) h1 (fun k hk => hd k (by omega))

theorem closest_dec (hN : Nondec ts) (d : ℤ) (n : ℕ) : ∀ r : ℤ, ts.length - r = n → 0 ≤ r → r < ts.length →
    ∃ f, closest (dualCycler ts) d r (tm ts r - d) = .ok f ∧ r ≤ f ∧ f < ts.length ∧ Dec ts d r f ∧
      |tm ts f - d| ≤ |tm ts r - d| := by
  induction n with
  | zero => intro r h _ _; omega
  | succ n ih =>
    intro r h h0 h1
    rw [closest_step d r h0 h1]
    split
    · rename_i h2
      obtain ⟨f, e, h3, h4, h5, h6⟩ := ih (r + 1) (by omega) (by omega) h2.1
      refine ⟨f, e, by omega, h4, fun k hk1 hk2 => ?_, by omega⟩
      rcases eq_or_lt_of_le hk1 with rfl | hk1
      · exact (closer_iff (hN r (r + 1) h0 (by omega) h2.1)).1 h2.2
      · exact h5 k (by omega) hk2
    · exact ⟨r, rfl, le_rfl, h1, fun k h2 h3 => by omega, le_rfl⟩

theorem mainLoop_sdiff {dat : List ℤ} {tol : ℤ} {j : ℕ} (hj : 1 ≤ j) (r : ℤ) (s s' : Option ℤ) :
    mainLoop (dualCycler ts) dat tol j r s = mainLoop (dualCycler ts) dat tol j r s' := by
  have ha : ∀ s, afterLoop j r s tol = .ok (some j, r) := fun s => by unfold afterLoop; rw [if_neg (by omega)]
  rw [mainLoop, mainLoop]
  simp only [ha]

theorem mainLoop_step {dat : List ℤ} {tol : ℤ} {j : ℕ} {d : ℤ} (hd : dat[j]? = some d) {r : ℤ} (h0 : 0 ≤ r)
    (h1 : r < ts.length) (s : Option ℤ) :
    mainLoop (dualCycler ts) dat tol j r s =
      if tm ts r - d < -tol then mainLoop (dualCycler ts) dat tol j (r + 1) (some (tm ts r - d))
      else if tm ts r - d > tol then mainLoop (dualCycler ts) dat tol (j + 1) r (some (tm ts r - d))
      else match closest (dualCycler ts) d r (tm ts r - d) with
        | .error e => .error e
        | .ok r' => .ok (some j, r') := by
  rw [mainLoop]
  split
  · rename_i h; rw [hd] at h; cases h
  · rename_i d' h
    rw [hd] at h
    cases h
    rw [dif_pos (by rw [dual_records]; exact h1)]
    split
    · rename_i e h; rw [dual_times, tm_idx h0 h1] at h; cases h
    · rename_i tr h
      rw [dual_times, tm_idx h0 h1] at h
      cases h
      simp only []
      split
      · split
        · rename_i h; rw [dual_next h0 h1] at h; cases h
        · rename_i h; rw [dual_next h0 h1] at h; cases h; rfl
      · rfl

/-- Records too early for the datum are skipped. -/
theorem mainLoop_skip {dat : List ℤ} {tol : ℤ} {j : ℕ} (hj : 1 ≤ j) {d : ℤ} (hd : dat[j]? = some d) (n : ℕ) :
    ∀ (a b : ℤ) (s s' : Option ℤ), b - a = n → 0 ≤ a → b ≤ ts.length → (∀ k, a ≤ k → k < b → tm ts k < d - tol) →
    mainLoop (dualCycler ts) dat tol j a s = mainLoop (dualCycler ts) dat tol j b s' := by
  induction n with
  | zero =>
    intro a b s s' h _ _ _
    obtain rfl : a = b := by omega
    exact mainLoop_sdiff hj _ _ _
  | succ n ih =>
    intro a b s s' h h0 h1 hs
    rw [mainLoop_step hd h0 (by omega), if_pos (by have := hs a le_rfl (by omega); omega)]
    exact ih (a + 1) b _ _ (by omega) (by omega) h1 (fun k hk => hs k (by omega))

/-- An exact match is what the loop finds as well. -/
theorem matchData_main {dat : List ℤ} {tol : ℤ} (htol : 0 ≤ tol) {j : ℕ} (hj : j < dat.length) {r : ℤ} (h0 : 0 ≤ r)
    (h1 : r < ts.length) : matchData (dualCycler ts) r dat j tol = mainLoop (dualCycler ts) dat tol j r none := by
  rw [matchData, if_neg (by omega), if_neg (by rw [dual_records]; omega), if_neg (by omega), dual_times, tm_idx h0 h1]
  simp only []
  split
  · rename_i h
    rw [mainLoop_step h h0 h1, if_neg (by omega), if_neg (by omega), closest_step _ _ h0 h1, if_neg]
    rintro ⟨-, h⟩
    simp only [sub_self, abs_zero] at h
    have := abs_nonneg (tm ts (r + 1) - tm ts r)
    omega
  · rfl

/-- Pair `f` belongs to a datum at `t`: everything before a stretch of closer and closer pairs is too early. -/
def Found (ts : List ℤ) (tol t f : ℤ) : Prop :=
  0 ≤ f ∧ f < ts.length ∧ |tm ts f - t| ≤ tol ∧
    ∃ a, 0 ≤ a ∧ a ≤ f ∧ (∀ k, 0 ≤ k → k < a → tm ts k < t - tol) ∧ Dec ts t a f

theorem mainLoop_found (hN : Nondec ts) {dat : List ℤ} (hD : dat.Pairwise (· ≤ ·)) {tol : ℤ} (n : ℕ) :
    ∀ (j : ℕ) (r : ℤ) (s : Option ℤ), (dat.length - j) + (ts.length - r).toNat = n → 0 ≤ r → r ≤ ts.length →
      (∀ k, 0 ≤ k → k < r → tm ts k < tm dat j - tol) → ∀ (i : ℕ) (f : ℤ),
      mainLoop (dualCycler ts) dat tol j r s = .ok (some i, f) → i < dat.length → f < ts.length →
      Found ts tol (tm dat i) f := by
  induction n using Nat.strong_induction_on with
  | _ n ih =>
    intro j r s hn h0 h1 hk i f h hi hf
    have hover : ∀ s, afterLoop j r s tol = .ok (some i, f) → i = j ∧ f = r := by
      intro s h
      unfold afterLoop at h
      split at h
      · split at h
        · cases h
        · split at h
          · cases h
          · cases h; exact ⟨rfl, rfl⟩
      · cases h; exact ⟨rfl, rfl⟩
    by_cases hj : j < dat.length
    · by_cases hr : r < ts.length
      · have hd := get_tm hj
        rw [mainLoop_step hd h0 hr] at h
        split at h
        · rename_i hlt
          refine ih _ ?_ j (r + 1) _ rfl (by omega) (by omega) (fun k hk1 hk2 => ?_) i f h hi hf
          · omega
          · rcases eq_or_lt_of_le (show k ≤ r by omega) with rfl | hk2
            · omega
            · exact hk k hk1 hk2
        split at h
        · refine ih _ ?_ (j + 1) r _ rfl h0 h1 (fun k hk1 hk2 => ?_) i f h hi hf
          · omega
          · have h3 := hk k hk1 hk2
            by_cases h4 : j + 1 < dat.length
            · have := pairwise_tm hD j (j + 1) (by omega) h4
              omega
            · exfalso
              have := mainLoop_ge _ _ _ _ _ _ _ _ h
              omega
        · obtain ⟨f', e, h2, h3, h4, h5⟩ := closest_dec hN (tm dat j) (ts.length - r).toNat r (by omega) h0 hr
          rw [e] at h
          cases h
          rename_i h6 h7
          exact ⟨by omega, h3, by rcases abs_cases (tm ts r - tm dat j) with ⟨h8, h9⟩ | ⟨h8, h9⟩ <;> omega, r, h0, h2, hk, h4⟩
      · exfalso
        rw [mainLoop] at h
        split at h
        · have := hover _ h; omega
        · rw [dif_neg (by rw [dual_records]; exact hr)] at h
          have := hover _ h; omega
    · exfalso
      have := mainLoop_ge _ _ _ _ _ _ _ _ h
      omega

/-- The next datum: searching from the first pair gives the same as searching from the pair of the datum before. -/
theorem match_restart (hN : Nondec ts) {dat : List ℤ} {tol : ℤ} (htol : 0 ≤ tol) {t f : ℤ}
    (hF : Found ts tol t f) {j : ℕ} (hj : 1 ≤ j) (hjl : j < dat.length) (ht : t ≤ tm dat j) :
    matchData (dualCycler ts) 0 dat j tol = matchData (dualCycler ts) f dat j tol := by
  obtain ⟨f0, f1, f2, a, a0, a1, a2, a3⟩ := hF
  have hd := get_tm hjl
  rw [matchData_main htol hjl le_rfl (by omega), matchData_main htol hjl f0 f1]
  have hdec := a3.mono ht
  obtain ⟨f3, f4⟩ := abs_le.1 f2
  by_cases h : tm ts f < tm dat j - tol
  · refine mainLoop_skip hj hd f.toNat 0 f _ _ (by omega) le_rfl (by omega) (fun k h1 h2 => ?_)
    have := hN k f h1 (by omega) f1
    omega
  · have hex : ∃ b, a ≤ b ∧ b ≤ f ∧ (∀ k, 0 ≤ k → k < b → tm ts k < tm dat j - tol) ∧ tm dat j - tol ≤ tm ts b := by
      have hP : ∃ m : ℕ, (m : ℤ) ≤ f ∧ tm dat j - tol ≤ tm ts m :=
        ⟨f.toNat, by omega, by rw [Int.toNat_of_nonneg f0]; omega⟩
      classical
      have h1 := Nat.find_spec hP
      refine ⟨Nat.find hP, ?_, h1.1, fun k hk1 hk2 => ?_, h1.2⟩
      · by_contra hc
        have := a2 (Nat.find hP) (by omega) (by omega)
        omega
      · have := Nat.find_min hP (m := k.toNat) (by omega)
        rw [Int.toNat_of_nonneg hk1] at this
        by_contra hc
        exact this ⟨by omega, by omega⟩
    obtain ⟨b, b1, b2, b3, b4⟩ := hex
    rw [mainLoop_skip hj hd b.toNat 0 b none none (by omega) le_rfl (by omega) (fun k h1 h2 => b3 k h1 h2)]
    have hbf := hN b f (by omega) b2 f1
    rw [mainLoop_step hd (by omega) (by omega), if_neg (by omega), if_neg (by omega), mainLoop_step hd f0 f1,
      if_neg (by omega), if_neg (by omega), closest_skip hN _ (f - b).toNat b f (by omega) (by omega) f1
      (fun k hk1 hk2 => hdec k (by omega) hk2)]

end Ocb.Reselect
