import Verif.Model.QuadDouble
import Verif.Props.TurnDouble

/-!
# C192, C193: the quadrant of the pole, and all steps that turn a vector, in double precision
-/

set_option autoImplicit false

namespace Ocb.Dbl

open Ocb.Coord Ocb.Vec

variable {r : ℝ → ℝ}

/-! ### the loops -/

theorem err24 (hr : Nearest r) {x : ℝ} (h : |x| ≤ 24) : |r x - x| ≤ 1 / 2 ^ 49 := by
  have := hr.err (x := x) (e := -48) (by norm_num) (by norm_num; linarith)
  norm_num at this ⊢
  exact this

theorem dbl24 : IsDouble 24 := by exact_mod_cast isDouble_nat (n := 24) (by norm_num)

/-- The first loop. -/
theorem loop_up (hr : Nearest r) {s : ℝ} (h0 : -48 ≤ s) (h1 : s ≤ 48) :
    ∃ y, While (fun s => decide (s < 0)) (fun s => r (s + 24)) s y ∧ 0 ≤ y ∧ y ≤ 48 ∧
      ∃ k : ℤ, |y - (s + 24 * k)| ≤ 2 / 2 ^ 49 := by
  have one : ∀ t : ℝ, -24 ≤ t → t < 0 → ∃ y, While (fun s => decide (s < 0)) (fun s => r (s + 24)) t y ∧ 0 ≤ y ∧ y ≤ 48 ∧
      |y - (t + 24)| ≤ 1 / 2 ^ 49 := by
    intro t t0 t1
    have a0 : 0 ≤ r (t + 24) := hr.nonneg (by linarith)
    refine ⟨r (t + 24), .step (by simpa using t1) (.done (by simpa using a0)), a0, ?_, err24 hr (abs_le.2 ⟨by linarith, by linarith⟩)⟩
    have := hr.le_dbl dbl24 (by linarith : t + 24 ≤ 24)
    linarith
  rcases le_or_gt 0 s with c | c
  · exact ⟨s, .done (by simpa using c), c, h1, 0, by norm_num⟩
  rcases le_or_gt (-24) s with c' | c'
  · obtain ⟨y, y1, y2, y3, y4⟩ := one s c' c
    refine ⟨y, y1, y2, y3, 1, ?_⟩
    push_cast
    rw [mul_one]
    exact y4.trans (by norm_num)
  · have e1 := err24 hr (x := s + 24) (abs_le.2 ⟨by linarith, by linarith⟩)
    have b0 : -24 ≤ r (s + 24) := hr.dbl_le dbl24.neg (by linarith)
    have b1 : r (s + 24) ≤ 0 := hr.nonpos (by linarith)
    rcases eq_or_lt_of_le b1 with b2 | b2
    · refine ⟨r (s + 24), .step (by simpa using c) (.done (by simp [b2])), b2.ge, by linarith, 1, ?_⟩
      push_cast
      rw [mul_one]
      exact e1.trans (by norm_num)
    · obtain ⟨y, y1, y2, y3, y4⟩ := one _ b0 b2
      refine ⟨y, .step (by simpa using c) y1, y2, y3, 2, ?_⟩
      push_cast
      have := abs_add_le (y - (r (s + 24) + 24)) (r (s + 24) - (s + 24))
      rw [show y - (r (s + 24) + 24) + (r (s + 24) - (s + 24)) = y - (s + 24 * 2) by ring] at this
      norm_num at e1 y4 this ⊢
      linarith

/-- The second loop. -/
theorem loop_down (hr : Nearest r) {s : ℝ} (h0 : 0 ≤ s) (h1 : s ≤ 48) :
    ∃ z, While (fun s => decide (24 ≤ |s|)) (fun s => r (s - 24 * (SignType.sign s : ℝ))) s z ∧ 0 ≤ z ∧ z < 24 ∧
      ∃ k : ℤ, |z - (s + 24 * k)| ≤ 2 / 2 ^ 49 := by
  have sg : ∀ t : ℝ, 0 < t → t - 24 * (SignType.sign t : ℝ) = t - 24 := fun t ht => by rw [sign_pos ht]; simp
  rcases lt_or_ge s 24 with c | c
  · refine ⟨s, .done ?_, h0, c, 0, by norm_num⟩
    rw [abs_of_nonneg h0]
    simpa using c
  · have e1 := err24 hr (x := s - 24) (abs_le.2 ⟨by linarith, by linarith⟩)
    have b0 : 0 ≤ r (s - 24) := hr.nonneg (by linarith)
    have b1 : r (s - 24) ≤ 24 := hr.le_dbl dbl24 (by linarith)
    have c1 : decide (24 ≤ |s|) = true := by rw [abs_of_nonneg h0]; simpa using c
    rcases eq_or_lt_of_le b1 with b2 | b2
    · refine ⟨0, .step c1 ?_, le_rfl, by norm_num, -2, ?_⟩
      · rw [sg s (by linarith), b2]
        refine .step (by rw [abs_of_pos (by norm_num)]; simp) ?_
        rw [sg 24 (by norm_num), sub_self, hr.zero]
        exact .done (by simp)
      · rw [b2] at e1
        push_cast
        rw [show (0 : ℝ) - (s + 24 * -2) = 24 - (s - 24) by ring]
        exact e1.trans (by norm_num)
    · refine ⟨r (s - 24), .step c1 ?_, b0, b2, -1, ?_⟩
      · rw [sg s (by linarith)]
        refine .done ?_
        rw [abs_of_nonneg b0]
        simpa using b2
      · push_cast
        rw [show s + 24 * -1 = s - 24 by ring]
        exact e1.trans (by norm_num)

/-- The difference of local time that decides. -/
theorem hours_near (hr : Nearest r) {dl pl : ℝ} (hdl : |dl| ≤ 24) (hpl : |pl| ≤ 24) :
    ∃ y z, While (fun s => decide (s < 0)) (fun s => r (s + 24)) (r (pl - dl)) y ∧
      While (fun s => decide (24 ≤ |s|)) (fun s => r (s - 24 * (SignType.sign s : ℝ))) y z ∧ 0 ≤ z ∧ z < 24 ∧
      ∃ k : ℤ, |z - (pl - dl + 24 * k)| ≤ 1 / 2 ^ 46 := by
  have h0 : |pl - dl| ≤ 48 := (abs_sub _ _).trans (by linarith)
  obtain ⟨h1, h2⟩ := abs_le.1 h0
  have d48 : IsDouble 48 := by exact_mod_cast isDouble_nat (n := 48) (by norm_num)
  obtain ⟨y, w1, y0, y1, k, hk⟩ := loop_up hr (s := r (pl - dl)) (hr.dbl_le d48.neg h1) (hr.le_dbl d48 h2)
  obtain ⟨z, w2, z0, z1, j, hj⟩ := loop_down hr y0 y1
  refine ⟨y, z, w1, w2, z0, z1, k + j, ?_⟩
  have h4 := hr.err (x := pl - dl) (e := -47) (by norm_num) (h0.trans (by norm_num))
  push_cast
  generalize r (pl - dl) = s at *
  have e : z - (pl - dl + 24 * (k + j)) = (z - (y + 24 * j)) + (y - (s + 24 * k)) + (s - (pl - dl)) := by ring
  rw [e]
  refine (abs_add_le _ _).trans ?_
  have := abs_add_le (z - (y + 24 * j)) (y - (s + 24 * k))
  norm_num at *
  linarith

/-- C192: `define_pole_quadrants` in double precision ends with one quadrant, in the north exactly for angles below 90 degrees;
it is the documented one if the difference of local time is further than `2 ^ -46` hours from every multiple of 12. -/
theorem C192_quadrant_partial (hr : Nearest r) {dl pl : ℝ} (hdl : |dl| ≤ 24) (hpl : |pl| ≤ 24) (p : ℝ) :
    ∃ q, (∀ out, PoleQuadD r dl pl p out ↔ out = q) ∧ 1 ≤ q ∧ q ≤ 4 ∧ (q ≤ 2 ↔ p < 90) ∧
      ((∀ k : ℤ, 1 / 2 ^ 46 < |pl - dl - 12 * k|) → PoleQ dl pl p q) := by
  obtain ⟨y, z, w1, w2, z0, z1, k, hk⟩ := hours_near hr hdl hpl
  have u : ∀ q : ℤ, (q = if p < 90 ∧ z < 12 then 1 else if p < 90 ∧ 12 ≤ z then 2 else if 90 ≤ p ∧ 12 ≤ z then 3
      else if 90 ≤ p ∧ z < 12 then 4 else 0) → ∀ out, PoleQuadD r dl pl p out ↔ out = q := by
    intro q hq out
    constructor
    · rintro ⟨y', z', a, b, c⟩
      obtain rfl := a.det w1
      obtain rfl := b.det w2
      rw [c, hq]
    · rintro rfl
      exact ⟨y, z, w1, w2, hq⟩
  have far : (∀ k : ℤ, 1 / 2 ^ 46 < |pl - dl - 12 * k|) → Ahead dl pl (pl - dl + 24 * k) ∧
      (z < 12 → pl - dl + 24 * k < 12) ∧ (12 ≤ z → 12 ≤ pl - dl + 24 * k) := by
    intro hf
    have f0 := hf (-2 * k)
    have f1 := hf (1 - 2 * k)
    have f2 := hf (2 - 2 * k)
    push_cast at f0 f1 f2
    rw [show pl - dl - 12 * (-2 * (k : ℝ)) = pl - dl + 24 * k by ring] at f0
    rw [show pl - dl - 12 * (1 - 2 * (k : ℝ)) = pl - dl + 24 * k - 12 by ring] at f1
    rw [show pl - dl - 12 * (2 - 2 * (k : ℝ)) = pl - dl + 24 * k - 24 by ring] at f2
    obtain ⟨k1, k2⟩ := abs_le.1 hk
    have hA : (∃ j : ℤ, pl - dl + 24 * (k : ℝ) = pl - dl + 24 * j) := ⟨k, rfl⟩
    refine ⟨⟨hA, ?_⟩, ?_⟩ <;> generalize pl - dl + 24 * (k : ℝ) = h at *
    · constructor
      · rcases abs_cases h with ⟨a, b⟩ | ⟨a, b⟩ <;> linarith
      · rcases abs_cases (h - 24) with ⟨a, b⟩ | ⟨a, b⟩ <;> linarith
    · constructor <;> intro hz <;> rcases abs_cases (h - 12) with ⟨a, b⟩ | ⟨a, b⟩ <;> linarith
  rcases lt_or_ge p 90 with hp | hp <;> rcases lt_or_ge z 12 with hz | hz
  · refine ⟨1, u 1 (by simp [hp, hz]), by norm_num, by norm_num, by simp [hp], fun hf => ?_⟩
    obtain ⟨a, b, c⟩ := far hf
    exact ⟨_, a, .inl ⟨rfl, hp, b hz⟩⟩
  · refine ⟨2, u 2 (by simp [hp, hz, not_lt.2 hz]), by norm_num, by norm_num, by simp [hp], fun hf => ?_⟩
    obtain ⟨a, b, c⟩ := far hf
    exact ⟨_, a, .inr (.inl ⟨rfl, hp, c hz⟩)⟩
  · refine ⟨4, u 4 (by simp [hp, hz, not_lt.2 hp, not_le.2 hz]), by norm_num, by norm_num, by simp [hp], fun hf => ?_⟩
    obtain ⟨a, b, c⟩ := far hf
    exact ⟨_, a, .inr (.inr (.inr ⟨rfl, hp, b hz⟩))⟩
  · refine ⟨3, u 3 (by simp [hp, hz, not_lt.2 hp]), by norm_num, by norm_num, by simp [hp], fun hf => ?_⟩
    obtain ⟨a, b, c⟩ := far hf
    exact ⟨_, a, .inr (.inr (.inl ⟨rfl, hp, c hz⟩))⟩

/-- C192 fails next to the meridian: a pole `2 ^ -60` hours to the west is put in the east, since the day added to the
difference is rounded to a full day. -/
theorem C192_meridian_refuted (hr : Nearest r) (p : ℝ) :
    IsDouble (2 ^ (-60 : ℤ)) ∧ (∀ out, PoleQuadD r (2 ^ (-60 : ℤ)) 0 p out ↔ out = if p < 90 then 1 else 4) ∧
      PoleQ (2 ^ (-60 : ℤ)) 0 p (if p < 90 then 2 else 3) := by
  have d : IsDouble (2 ^ (-60 : ℤ)) := isDouble_two (by norm_num)
  have s60 := two_pos (-60)
  have h1 : r (0 - 2 ^ (-60 : ℤ)) = -2 ^ (-60 : ℤ) := by rw [zero_sub]; exact hr.keep d.neg
  have h2 : r (-2 ^ (-60 : ℤ) + 24) = 24 := by
    have := hr.near (x := -2 ^ (-60 : ℤ) + 24) (e := -48) (k := 24 * 2 ^ 48) (by norm_num) (by norm_num) (by norm_num)
      (by push_cast; norm_num [abs_of_pos])
    rw [this]; norm_num
  have w1 : While (fun s : ℝ => decide (s < 0)) (fun s => r (s + 24)) (r (0 - 2 ^ (-60 : ℤ))) 24 := by
    rw [h1]
    refine .step (by simpa using s60) ?_
    rw [h2]
    exact .done (by simp)
  have w2 : While (fun s : ℝ => decide (24 ≤ |s|)) (fun s => r (s - 24 * (SignType.sign s : ℝ))) 24 0 := by
    refine .step (by rw [abs_of_pos (by norm_num)]; simp) ?_
    rw [sign_pos (by norm_num : (0 : ℝ) < 24)]
    simp only [SignType.coe_one, mul_one, sub_self, hr.zero]
    exact .done (by simp)
  refine ⟨d, fun out => ?_, ?_⟩
  · have e : (if p < 90 then (1 : ℤ) else 4) = if p < 90 ∧ (0 : ℝ) < 12 then 1 else if p < 90 ∧ (12 : ℝ) ≤ 0 then 2
        else if 90 ≤ p ∧ (12 : ℝ) ≤ 0 then 3 else if 90 ≤ p ∧ (0 : ℝ) < 12 then 4 else 0 := by
      rcases lt_or_ge p 90 with h | h
      · simp [h]
      · simp [h, not_lt.2 h]
    rw [e]
    constructor
    · rintro ⟨y', z', a, b, c⟩
      obtain rfl := a.det w1
      obtain rfl := b.det w2
      exact c
    · intro h
      exact ⟨24, 0, w1, w2, h⟩
  · have s1 : (2 : ℝ) ^ (-60 : ℤ) ≤ 1 := by norm_num
    refine ⟨24 - 2 ^ (-60 : ℤ), ⟨⟨1, by push_cast; ring⟩, by linarith, by linarith⟩, ?_⟩
    rcases lt_or_ge p 90 with h | h
    · exact .inr (.inl ⟨by simp [h], h, by linarith⟩)
    · exact .inr (.inr (.inl ⟨by simp [not_lt.2 h], h, by linarith⟩))

/-! ### all steps -/

/-- The component along a direction changes with it at most as the magnitude. -/
theorem along_near {n e A B : ℝ} (h0 : ¬ (n = 0 ∧ e = 0)) :
    |along A n e - along B n e| ≤ √(n ^ 2 + e ^ 2) * (|A - B| * (Real.pi / 180)) := by
  obtain ⟨b, -, -, hn, he⟩ := naz_spec h0
  have v0 := vmag_pos h0
  have e1 : ∀ C : ℝ, along C n e = √(n ^ 2 + e ^ 2) * Real.cos (radians (azim (vectQuad (some n) (some e)) b) - radians C) := by
    intro C
    rw [Real.cos_sub]
    unfold along
    have : C * Real.pi / 180 = radians C := rfl
    rw [this]
    linear_combination -Real.cos (radians C) * hn - Real.sin (radians C) * he
  rw [e1, e1, ← mul_sub, abs_mul, abs_of_pos v0]
  refine mul_le_mul_of_nonneg_left ((Real.abs_cos_sub_cos_le _ _).trans_eq ?_) v0.le
  rw [sub_sub_sub_cancel_left, abs_sub_comm, ← radians_sub]
  unfold radians
  rw [mul_div_assoc, abs_mul, abs_of_pos (by positivity : 0 < Real.pi / 180)]

/-- Away from the meridian of the poles the angle of the triangle is as far from 0 and from 180 degrees. -/
theorem angle_inside {dl da pl pa : ℝ} (hda : |da| < 90) (hpa : |pa| < 90) (hp0 : pa ≠ 0)
    (hs : Real.sin (hourAngle (pl - dl)) ≠ 0) :
    Real.cos (da * Real.pi / 180) * Real.cos (pa * Real.pi / 180) * |Real.sin (hourAngle (pl - dl))| ≤
        angleAt (place da dl) (basePole (SignType.sign pa)) (place pa pl) ∧
      Real.cos (da * Real.pi / 180) * Real.cos (pa * Real.pi / 180) * |Real.sin (hourAngle (pl - dl))| ≤
        Real.pi - angleAt (place da dl) (basePole (SignType.sign pa)) (place pa pl) := by
  have ca := cos_lat_pos hda
  have cb := cos_lat_pos hpa
  have hσ := sign_real hp0
  have hy := tLen_pos (b := radians pa) ca.ne' hs
  have x4 := sine_angle (s := (SignType.sign pa : ℝ)) (a := radians da) hσ cb hy
  have hm1 : tLen (radians da) (radians pa) (hourAngle (pl - dl)) ≤ 1 := by
    have := tLen_sq (radians da) (radians pa) (hourAngle (pl - dl))
    nlinarith [sq_nonneg (cDist (radians da) (radians pa) (hourAngle (pl - dl)))]
  rw [angleAt_eq hσ ca]
  rw [← Real.sin_arccos] at x4
  have a0 := Real.arccos_nonneg (SignType.sign pa * tN (radians da) (radians pa) (hourAngle (pl - dl)) /
      tLen (radians da) (radians pa) (hourAngle (pl - dl)))
  have a1 := Real.arccos_le_pi (SignType.sign pa * tN (radians da) (radians pa) (hourAngle (pl - dl)) /
      tLen (radians da) (radians pa) (hourAngle (pl - dl)))
  generalize Real.arccos (SignType.sign pa * tN (radians da) (radians pa) (hourAngle (pl - dl)) /
      tLen (radians da) (radians pa) (hourAngle (pl - dl))) = α at *
  have hV : Real.cos (radians da) * Real.cos (radians pa) * |Real.sin (hourAngle (pl - dl))| ≤ Real.sin α := by
    rw [x4, le_div_iff₀ hy]
    have h1 : 0 ≤ Real.cos (radians pa) * |Real.sin (hourAngle (pl - dl))| := mul_nonneg cb.le (abs_nonneg _)
    have h2 := mul_le_one₀ (Real.cos_le_one (radians da)) hy.le hm1
    nlinarith
  have s1 := Real.sin_le a0
  have s2 := Real.sin_le (by linarith : 0 ≤ Real.pi - α)
  rw [Real.sin_pi_sub] at s2
  exact ⟨hV.trans s1, hV.trans s2⟩

/-- C193: all steps that turn a vector, the pole angle, the quadrants and the rotation, in double precision: away from the
meridian of the poles they end in numbers, near the components along the direction of the destination pole on the sphere and
90 degrees clockwise of it, with the magnitude kept. -/
theorem C193_turned (hr : Nearest r) {L : Lib} (hL : L.Ok r)
    (hat : ∀ x y : ℝ, 0 ≤ y → (x ≠ 0 ∨ y ≠ 0) → |L.atan2 y x - atan2 y x| ≤ 1 / 2 ^ 51) {acos : ℝ → ℝ}
    (hac : ∀ x, 0 ≤ x → x ≤ 1 → |acos x - Real.arccos x| ≤ 1 / 2 ^ 52)
    (hac1 : ∀ x, |x| ≤ 1 → |acos x - Real.arccos x| ≤ 1 / 2 ^ 51) {dl da pl pa n e V : ℝ}
    (hdl : |dl| ≤ 24) (hpl : |pl| ≤ 24) (hda : |da| < 90) (hpa : |pa| < 90) (hp0 : pa ≠ 0)
    (hV : V = Real.cos (da * Real.pi / 180) * Real.cos (pa * Real.pi / 180) * |Real.sin (hourAngle (pl - dl))|)
    (hV0 : 1 / 2 ^ 18 ≤ V) (hn : IsDouble n)
    (hv : 2 ^ (-500 : ℤ) ≤ √(n ^ 2 + e ^ 2)) (hv1 : √(n ^ 2 + e ^ 2) ≤ 2 ^ (500 : ℤ)) :
    ∃ n' e' A, (∀ out, TurnedD r L acos dl da pl pa n e out ↔ out = some (n', e')) ∧
      Bearing dl pl (angleAt (place da dl) (basePole (SignType.sign pa)) (place pa pl) * 180 / Real.pi) A ∧
      |n' - along A n e| ≤ (1 / 2 ^ 23 + 1 / 2 ^ 37 / V) * √(n ^ 2 + e ^ 2) ∧
      |e' - along (A + 90) n e| ≤ (1 / 2 ^ 23 + 1 / 2 ^ 37 / V) * √(n ^ 2 + e ^ 2) ∧
      |√(n' ^ 2 + e' ^ 2) - √(n ^ 2 + e ^ 2)| ≤ 1 / 2 ^ 49 * √(n ^ 2 + e ^ 2) := by
  have v0 : 0 < √(n ^ 2 + e ^ 2) := lt_of_lt_of_le (two_pos _) hv
  have h0 : ¬ (n = 0 ∧ e = 0) := by
    rintro ⟨rfl, rfl⟩
    simp at v0
  have Vp : 0 < V := lt_of_lt_of_le (by norm_num) hV0
  have ca := cos_lat_pos hda
  have cb := cos_lat_pos hpa
  have vs : 1 / 2 ^ 18 ≤ |Real.sin (hourAngle (pl - dl))| := by
    refine (hV0.trans_eq hV).trans ?_
    exact mul_le_of_le_one_left (abs_nonneg _) (mul_le_one₀ (Real.cos_le_one _) cb.le (Real.cos_le_one _))
  have hsin : Real.sin (hourAngle (pl - dl)) ≠ 0 := by
    intro hc
    rw [hc] at vs
    norm_num at vs
  have hfar : ∀ k : ℤ, 1 / 2 ^ 46 < |pl - dl - 12 * k| := by
    intro k
    by_contra hc
    push Not at hc
    have e1 : hourAngle (pl - dl) = hourAngle (pl - dl - 12 * k) + k * Real.pi := by unfold hourAngle; ring
    rw [e1, Real.sin_add_int_mul_pi, abs_mul, abs_neg_one_zpow, one_mul] at vs
    have h1 := Real.abs_sin_le_abs (x := hourAngle (pl - dl - 12 * k))
    have h2 : |hourAngle (pl - dl - 12 * k)| ≤ 1 / 2 ^ 46 * 1 := by
      unfold hourAngle
      rw [mul_div_assoc, abs_mul, abs_of_pos (by positivity : 0 < Real.pi / 12)]
      exact mul_le_mul hc (by linarith [Real.pi_lt_four]) (by positivity) (by norm_num)
    norm_num at vs h1 h2
    linarith
  obtain ⟨p, hp, pP⟩ := C190_pole_angle hr hL hat hac hdl hpl hda hpa hp0 (by rw [← hV]; exact le_trans (by norm_num) hV0)
  obtain ⟨q, hq, q1, q4, q2, hQ⟩ := C192_quadrant_partial hr hdl hpl p
  have hPQ := hQ hfar
  obtain ⟨i0, i1⟩ := angle_inside (dl := dl) (pl := pl) hda hpa hp0 hsin
  rw [← hV] at i0 i1 pP
  have π0 := Real.pi_pos
  have π1 := Real.pi_lt_d2
  have dv : ∀ x : ℝ, V ≤ x → 57 * V ≤ x * 180 / Real.pi := by
    intro x hx
    rw [le_div_iff₀ π0]
    norm_num at π1
    nlinarith
  have j0 := dv _ i0
  have j1 := dv _ i1
  rw [sub_mul, sub_div, show Real.pi * 180 / Real.pi = 180 by field_simp] at j1
  generalize angleAt (place da dl) (basePole (SignType.sign pa)) (place pa pl) * 180 / Real.pi = P at *
  have eV : 1 / 2 ^ 32 / V < 57 * V := by
    rw [div_lt_iff₀ Vp]
    calc (1 / 2 ^ 32 : ℝ) < 57 * ((1 / 2 ^ 18) * (1 / 2 ^ 18)) := by norm_num
      _ ≤ 57 * (V * V) := mul_le_mul_of_nonneg_left (mul_le_mul hV0 hV0 (by norm_num) Vp.le) (by norm_num)
      _ = _ := by ring
  obtain ⟨p1, p2⟩ := abs_le.1 pP
  have p0 : 0 < p := by linarith
  have p180 : p < 180 := by linarith
  obtain ⟨h, hA, hc⟩ := hPQ
  have hH : Half q p := by
    unfold Half
    rcases hc with ⟨rfl, c, -⟩ | ⟨rfl, c, -⟩ | ⟨rfl, c, -⟩ | ⟨rfl, c, -⟩
    · exact .inl ⟨.inl rfl, p0.le, c.le⟩
    · exact .inl ⟨.inr rfl, p0.le, c.le⟩
    · exact .inr ⟨.inl rfl, c, p180.le⟩
    · exact .inr ⟨.inr rfl, c, p180.le⟩
  have hB : Bearing dl pl P (azim q P) := by
    refine ⟨h, hA, ?_⟩
    unfold azim
    rcases hc with ⟨rfl, -, c⟩ | ⟨rfl, -, c⟩ | ⟨rfl, -, c⟩ | ⟨rfl, -, c⟩
    · exact .inl ⟨c, by simp⟩
    · exact .inr ⟨c, by simp⟩
    · exact .inr ⟨c, by simp⟩
    · exact .inl ⟨c, by simp⟩
  obtain ⟨n', e', t1, t2, t3, t4⟩ := C191_turn_partial hr hL hac1 hn hH hv hv1
  have az : |azim q p - azim q P| ≤ 1 / 2 ^ 32 / V := by
    unfold azim
    split_ifs
    · exact pP
    · rw [show -p - -P = -(p - P) by ring, abs_neg]; exact pP
  have lip : ∀ c : ℝ, |along (azim q p + c) n e - along (azim q P + c) n e| ≤ 1 / 2 ^ 37 / V * √(n ^ 2 + e ^ 2) := by
    intro c
    refine (along_near h0).trans ?_
    rw [add_sub_add_right_eq_sub, mul_comm]
    refine mul_le_mul_of_nonneg_right ?_ v0.le
    calc _ ≤ 1 / 2 ^ 32 / V * (1 / 2 ^ 5) := mul_le_mul az (by norm_num at π1 ⊢; linarith) (by positivity) (by positivity)
      _ = _ := by ring
  refine ⟨n', e', azim q P, fun out => ?_, hB, ?_, ?_, t4⟩
  · constructor
    · rintro ⟨p', q', a, -, -, b, c⟩
      obtain rfl : p' = p := Option.some.inj ((hp _).1 a)
      obtain rfl := (hq _).1 b
      rw [c, t1]
    · rintro rfl
      exact ⟨p, q, (hp _).2 rfl, p0, p180, (hq _).2 rfl, t1.symm⟩
  · have l0 := lip 0
    rw [add_zero, add_zero] at l0
    have := abs_sub_le n' (along (azim q p) n e) (along (azim q P) n e)
    rw [add_mul]
    linarith
  · have l0 := lip 90
    have := abs_sub_le e' (along (azim q p + 90) n e) (along (azim q P + 90) n e)
    rw [add_mul]
    linarith

/-- A vector at 60 degrees latitude and midnight, the pole at 60 degrees and six hours: the conditions hold with `V = 1 / 4`. -/
example (hr : Nearest r) : ∃ n' e', (∀ out, TurnedD r (havLib r) Real.arccos 0 60 6 60 3 4 out ↔ out = some (n', e')) ∧
    |√(n' ^ 2 + e' ^ 2) - 5| ≤ 5 / 2 ^ 49 := by
  have h5 : √((3 : ℝ) ^ 2 + 4 ^ 2) = 5 := by
    rw [show (3 : ℝ) ^ 2 + 4 ^ 2 = 5 ^ 2 by norm_num, Real.sqrt_sq (by norm_num)]
  have d3 : IsDouble 3 := by exact_mod_cast isDouble_nat (n := 3) (by norm_num)
  have b0 : (2 : ℝ) ^ (-500 : ℤ) ≤ 5 := (two_le (by norm_num : (-500 : ℤ) ≤ 0)).trans (by norm_num)
  have b1 : (5 : ℝ) ≤ 2 ^ (500 : ℤ) := le_trans (by norm_num : (5 : ℝ) ≤ 2 ^ (3 : ℤ)) (two_le (by norm_num))
  have hV : (1 : ℝ) / 2 ^ 18 ≤ Real.cos (60 * Real.pi / 180) * Real.cos (60 * Real.pi / 180) * |Real.sin (hourAngle (6 - 0))| := by
    have h1 : Real.cos (60 * Real.pi / 180) = 1 / 2 := by
      rw [show 60 * Real.pi / 180 = Real.pi / 3 by ring, Real.cos_pi_div_three]
    have h2 : Real.sin (hourAngle (6 - 0)) = 1 := by
      unfold hourAngle
      rw [show (6 - 0) * Real.pi / 12 = Real.pi / 2 by ring, Real.sin_pi_div_two]
    rw [h1, h2]
    norm_num
  obtain ⟨n', e', A, h1, -, -, -, h2⟩ := C193_turned hr (havLib_ok hr) (fun x y _ _ => exAtan r x y) (acos := Real.arccos)
    (fun x _ _ => by simp) (fun x _ => by simp) (dl := 0) (da := 60) (pl := 6) (pa := 60) (n := 3) (e := 4) (by norm_num)
    (by norm_num [abs_of_pos]) (by norm_num [abs_of_pos]) (by norm_num [abs_of_pos]) (by norm_num) rfl hV d3
    (by rw [h5]; exact b0) (by rw [h5]; exact b1)
  rw [h5] at h2
  exact ⟨n', e', h1, h2.trans (by norm_num)⟩

end Ocb.Dbl
