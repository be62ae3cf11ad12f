import Mathlib.Tactic.LinearCombination
import Mathlib.Tactic.NormNum
import Verif.Model.Vectors
import Verif.Lemmas.Coord

/-! Helper lemmas for `Verif.Props.Vectors`. -/

set_option autoImplicit false

namespace Ocb.Vec

open Real Ocb.Time Ocb.Coord

/-- The quadrant `q` fits an angle `a` measured from north: north half for 1 and 2, south half for 3 and 4. -/
def Half (q : ℤ) (a : ℝ) : Prop :=
  ((q = 1 ∨ q = 2) ∧ 0 ≤ a ∧ a ≤ 90) ∨ ((q = 3 ∨ q = 4) ∧ 90 ≤ a ∧ a ≤ 180)

/-- The signed azimuth, clockwise from north, of a direction at angle `a` from north in quadrant `q`. -/
noncomputable def azim (q : ℤ) (a : ℝ) : ℝ := if q = 1 ∨ q = 4 then a else -a

theorem table_spec {pq vq : ℤ} {b p : ℝ} (hp : Half pq p) (hv : Half vq b) :
    ∃ d, destPolarTable pq vq b p = some d ∧ 0 ≤ d ∧ d ≤ 180 ∧
      ((northSign pq vq b p = 1 ∧ d ≤ 90) ∨ (northSign pq vq b p = -1 ∧ 90 ≤ d)) ∧
      (eastSign pq vq b p = 1 ∨ eastSign pq vq b p = -1) ∧
      (azim vq b - azim pq p = eastSign pq vq b p * d ∨ azim vq b - azim pq p = eastSign pq vq b p * d + 360 ∨
        azim vq b - azim pq p = eastSign pq vq b p * d - 360) := by
  rcases hp with ⟨rfl | rfl, hp1, hp2⟩ | ⟨rfl | rfl, hp1, hp2⟩ <;>
  rcases hv with ⟨rfl | rfl, hv1, hv2⟩ | ⟨rfl | rfl, hv1, hv2⟩ <;>
  rcases abs_cases (b - p) with ⟨h, h'⟩ | ⟨h, h'⟩ <;>
  simp only [destPolarTable, northSign, eastSign, azim, Int.reduceEq, and_true, and_false, or_false, false_or,
    true_or, or_true, false_and, true_and, and_self, if_true, if_false, Option.some.injEq, exists_eq_left', h] <;>
  (try split_ifs) <;>
  (first | refine ⟨?_, ?_, ?_, ?_, ?_⟩ | refine ⟨?_, ?_, ?_, ?_⟩ | refine ⟨?_, ?_, ?_⟩) <;>
  first
  | linarith
  | exact .inl rfl
  | exact .inr rfl
  | exact .inl ⟨rfl, by linarith⟩
  | exact .inr ⟨rfl, by linarith⟩
  | exact .inl (by linarith)
  | exact .inr (by linarith)
  | exact .inr (.inl (by linarith))
  | exact .inr (.inr (by linarith))

theorem radians_le {a b : ℝ} : radians a ≤ radians b ↔ a ≤ b := by
  unfold radians
  have := pi_pos
  constructor
  · intro h
    have h1 : a * π ≤ b * π := by linarith
    exact le_of_mul_le_mul_right h1 this
  · intro h
    have h1 : a * π ≤ b * π := mul_le_mul_of_nonneg_right h this.le
    linarith

theorem radians_90 : radians 90 = π / 2 := by unfold radians; ring

theorem radians_180 : radians 180 = π := by unfold radians; ring

theorem radians_neg (a : ℝ) : radians (-a) = -radians a := by unfold radians; ring

theorem radians_sub (a b : ℝ) : radians (a - b) = radians a - radians b := by unfold radians; ring

theorem radians_degrees (a : ℝ) : radians (degrees a) = a := by
  unfold radians degrees; field_simp

theorem degrees_radians (a : ℝ) : degrees (radians a) = a := by
  unfold radians degrees; field_simp

theorem degrees_le {a b : ℝ} : degrees a ≤ degrees b ↔ a ≤ b := by
  rw [← radians_le, radians_degrees, radians_degrees]

/-- The same direction up to sign and full turns. -/
theorem turn {s d δ : ℝ} (hs : s = 1 ∨ s = -1) (h : δ = s * d ∨ δ = s * d + 360 ∨ δ = s * d - 360) :
    cos (radians d) = cos (radians δ) ∧ s * sin (radians d) = sin (radians δ) := by
  have e1 : ∀ t : ℝ, radians (t + 360) = radians t + 2 * π := fun t => by unfold radians; ring
  have e2 : ∀ t : ℝ, radians (t - 360) = radians t - 2 * π := fun t => by unfold radians; ring
  rcases hs with rfl | rfl <;> rcases h with rfl | rfl | rfl <;>
    simp [e1, e2, radians_neg]

theorem vmag_pos {n e : ℝ} (h : ¬ (n = 0 ∧ e = 0)) : 0 < √(n ^ 2 + e ^ 2) := by
  apply Real.sqrt_pos.2
  by_contra hc
  have h1 := sq_nonneg n
  have h2 := sq_nonneg e
  exact h ⟨by nlinarith, by nlinarith⟩

/-- The azimuth of the vector: its angle from north, and its components recovered from the signed azimuth. -/
theorem naz_spec {n e : ℝ} (h : ¬ (n = 0 ∧ e = 0)) :
    ∃ b, npArccos (n / √(n ^ 2 + e ^ 2)) = some (radians b) ∧ Half (vectQuad (some n) (some e)) b ∧
      √(n ^ 2 + e ^ 2) * cos (radians (azim (vectQuad (some n) (some e)) b)) = n ∧
      √(n ^ 2 + e ^ 2) * sin (radians (azim (vectQuad (some n) (some e)) b)) = e := by
  have hv := vmag_pos h
  have hv2 : √(n ^ 2 + e ^ 2) ^ 2 = n ^ 2 + e ^ 2 := Real.sq_sqrt (by positivity)
  generalize √(n ^ 2 + e ^ 2) = v at hv hv2
  have hle : |n| ≤ v := abs_le_of_sq_le_sq (by nlinarith [sq_nonneg e]) hv.le
  rw [abs_le] at hle
  have h1 : -1 ≤ n / v := by rw [le_div_iff₀ hv]; linarith
  have h2 : n / v ≤ 1 := by rw [div_le_iff₀ hv]; linarith
  have hcos : cos (arccos (n / v)) = n / v := cos_arccos h1 h2
  have hsin : sin (arccos (n / v)) = |e| / v := by
    rw [sin_arccos, ← Real.sqrt_sq (show 0 ≤ |e| / v by positivity)]
    congr 1
    rw [div_pow, div_pow, sq_abs]
    field_simp
    linarith
  refine ⟨degrees (arccos (n / v)), ?_, ?_, ?_, ?_⟩
  · rw [radians_degrees, npArccos, if_neg]
    push Not
    exact ⟨h1, h2⟩
  · have b0 : 0 ≤ degrees (arccos (n / v)) := by
      have := degrees_le.2 (arccos_nonneg (n / v)); simpa [degrees] using this
    have b1 : degrees (arccos (n / v)) ≤ 180 := by
      have := degrees_le.2 (arccos_le_pi (n / v)); rw [← radians_180, degrees_radians] at this; exact this
    have b2 : degrees (arccos (n / v)) ≤ 90 ↔ 0 ≤ n := by
      have h3 : (0 ≤ n / v) ↔ 0 ≤ n := by
        constructor
        · intro h
          have := mul_nonneg h hv.le
          rwa [div_mul_cancel₀ _ hv.ne'] at this
        · exact fun h => div_nonneg h hv.le
      rw [← h3, ← arccos_le_pi_div_two, ← degrees_le (b := π / 2), ← radians_90, degrees_radians]
    unfold Half vectQuad
    rcases lt_or_ge n 0 with hn | hn
    · have : 90 ≤ degrees (arccos (n / v)) := le_of_not_ge fun hc => by linarith [b2.1 hc]
      rcases lt_or_ge e 0 with he | he
      · simp [hn, he, not_le.2 hn, not_le.2 he, this, b1]
      · simp [hn, he, not_le.2 hn, not_lt.2 he, this, b1]
    · have := b2.2 hn
      rcases lt_or_ge e 0 with he | he
      · simp [hn, he, not_le.2 he, this, b0]
      · simp [hn, he, this, b0]
  · unfold azim
    split_ifs
    · rw [radians_degrees, hcos]; field_simp
    · rw [radians_neg, radians_degrees, cos_neg, hcos]; field_simp
  · have hq : (vectQuad (some n) (some e) = 1 ∨ vectQuad (some n) (some e) = 4) ↔ 0 ≤ e := by
      unfold vectQuad
      rcases lt_or_ge n 0 with hn | hn <;> rcases lt_or_ge e 0 with he | he <;>
      simp [hn, he, not_le.2, not_lt.2]
    unfold azim
    rcases lt_or_ge e 0 with he | he
    · rw [if_neg (by rw [hq]; exact not_le.2 he), radians_neg, radians_degrees, sin_neg, hsin, abs_of_neg he]
      field_simp
    · rw [if_pos (hq.2 he), radians_degrees, hsin, abs_of_nonneg he]
      field_simp

theorem naz_eq {x : VIn} {n e b : ℝ} (hn : x.n = some n) (he : x.e = some e) (h : ¬ (n = 0 ∧ e = 0))
    (hb : npArccos (n / √(n ^ 2 + e ^ 2)) = some (radians b)) : x.naz = some b := by
  have hv := vmag_pos h
  unfold VIn.naz VIn.vmag
  rw [hn, he]
  simp only
  rw [if_neg hv.ne', hb]
  simp [degrees_radians]

/-- The general case is a rotation of the horizontal components. -/
theorem normOut_rot (nanZ : Bool) {x : VIn} {n e p : ℝ} {pq : ℤ} (hn : x.n = some n) (he : x.e = some e)
    (hp : x.ang = some p) (h : ¬ (n = 0 ∧ e = 0)) (hq : Half pq p) :
    normOut nanZ pq (vectQuad (some n) (some e)) x =
      (some (n * cos (radians (azim pq p)) + e * sin (radians (azim pq p))),
        some (e * cos (radians (azim pq p)) - n * sin (radians (azim pq p))), x.z) := by
  obtain ⟨b, hb, hh, hc, hs⟩ := naz_spec h
  obtain ⟨d, hd, hd0, hd1, hN, hE, ht⟩ := table_spec hq hh
  obtain ⟨tc, ts⟩ := turn hE ht
  have hnaz := naz_eq hn he h hb
  have hvm : x.vmag = some (√(n ^ 2 + e ^ 2)) := by unfold VIn.vmag; rw [hn, he]
  unfold normOut
  rw [hnaz, hp, hvm]
  simp only [destPolarEntry, hd]
  generalize vectQuad (some n) (some e) = vq at *
  generalize √(n ^ 2 + e ^ 2) = v at *
  have key1 : northSign pq vq b p * cos (if π / 2 < radians d then π - radians d else radians d) = cos (radians d) := by
    rcases hN with ⟨h1, h2⟩ | ⟨h1, h2⟩
    · rw [h1, if_neg, one_mul]
      rw [not_lt, ← radians_90, radians_le]; exact h2
    · rw [h1]
      split_ifs with hc
      · rw [cos_pi_sub]; ring
      · rw [← radians_90, not_lt, radians_le] at hc
        have : d = 90 := le_antisymm hc h2
        rw [this, radians_90, cos_pi_div_two]; ring
  have key2 : sin (if π / 2 < radians d then π - radians d else radians d) = sin (radians d) := by
    split_ifs
    · rw [sin_pi_sub]
    · rfl
  have e1 : northSign pq vq b p * v * cos (if π / 2 < radians d then π - radians d else radians d)
      = n * cos (radians (azim pq p)) + e * sin (radians (azim pq p)) := by
    rw [mul_right_comm, key1, tc, radians_sub, cos_sub]
    linear_combination cos (radians (azim pq p)) * hc + sin (radians (azim pq p)) * hs
  have e2 : eastSign pq vq b p * v * sin (if π / 2 < radians d then π - radians d else radians d)
      = e * cos (radians (azim pq p)) - n * sin (radians (azim pq p)) := by
    rw [key2, mul_right_comm, ts, radians_sub, sin_sub]
    linear_combination cos (radians (azim pq p)) * hs - sin (radians (azim pq p)) * hc
  rw [e1, e2]

theorem northSign_sq (pq vq : ℤ) (b p : ℝ) : northSign pq vq b p ^ 2 = 1 := by
  unfold northSign; simp only; split_ifs <;> norm_num

theorem eastSign_sq (pq vq : ℤ) (b p : ℝ) : eastSign pq vq b p ^ 2 = 1 := by
  unfold eastSign; simp only; split_ifs <;> norm_num

/-- Whatever the quadrants, a general-case result made of numbers has the magnitude of the input. -/
theorem normOut_mag (nanZ : Bool) {x : VIn} {n e n' e' : ℝ} {pq vq : ℤ} {z' : Option ℝ} (hn : x.n = some n)
    (he : x.e = some e) (h : normOut nanZ pq vq x = (some n', some e', z')) : n' ^ 2 + e' ^ 2 = n ^ 2 + e ^ 2 := by
  unfold normOut at h
  have hvm : x.vmag = some (√(n ^ 2 + e ^ 2)) := by unfold VIn.vmag; rw [hn, he]
  split at h
  · rename_i d v b p hd hv hb hp
    rw [hvm] at hv
    simp only [Option.some.injEq, Prod.mk.injEq] at h hv
    obtain ⟨h1, h2, -⟩ := h
    have hv2 : √(n ^ 2 + e ^ 2) ^ 2 = n ^ 2 + e ^ 2 := Real.sq_sqrt (by positivity)
    rw [hv] at hv2
    rw [← h1, ← h2, ← hv2]
    have a1 := northSign_sq pq vq b p
    have a2 := eastSign_sq pq vq b p
    generalize northSign pq vq b p = s at *
    generalize eastSign pq vq b p = t at *
    generalize (if π / 2 < radians d then π - radians d else radians d) = r
    have a3 := sin_sq_add_cos_sq r
    linear_combination v ^ 2 * cos r ^ 2 * a1 + v ^ 2 * sin r ^ 2 * a2 + v ^ 2 * a3
  · simp at h

theorem largeLoop_id {x : ℝ} (h0 : 0 ≤ x) (h : x < 24) : largeLoop x = x := by
  rw [largeLoop, if_neg]; rw [abs_of_nonneg h0]; linarith

theorem largeLoop_spec (x : ℝ) (h0 : 0 ≤ x) : ∃ k : ℤ, largeLoop x = x + 24 * k ∧ 0 ≤ largeLoop x ∧ largeLoop x < 24 := by
  fun_induction largeLoop x with
  | case1 x h ih =>
    rw [abs_of_nonneg h0] at h
    have hs : (SignType.sign x : ℝ) = 1 := by rw [sign_pos (by linarith)]; simp
    rw [hs] at ih ⊢
    obtain ⟨k, h1, h2, h3⟩ := ih (by linarith)
    refine ⟨k - 1, ?_, h2, h3⟩
    rw [h1]; push_cast; ring
  | case2 x h =>
    rw [abs_of_nonneg h0] at h
    exact ⟨0, by simp, h0, by linarith⟩

end Ocb.Vec
