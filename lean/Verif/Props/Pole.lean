import Verif.Lemmas.Sphere
import Verif.Props.Vectors
import Mathlib.Tactic.IntervalCases

/-!
# Properties of the pole angle, alone (C40) and with the rotation (C66-C68)
-/

set_option autoImplicit false

namespace Ocb.Vec

open Real Ocb.Time Ocb.Coord

/-- The longitude difference computed by the code. -/
noncomputable def delLong (d : ℝ) : ℝ := fixVal (d * π / 12) (π - 2 * π) π (2 * π)

theorem delLong_range (d : ℝ) : -π ≤ delLong d ∧ delLong d < π := by
  have h1 := fixVal_ge (d * π / 12) (π - 2 * π) π (2 * π) (by positivity)
  have h2 := fixVal_lt (d * π / 12) (π - 2 * π) π (2 * π) (by positivity) (by linarith)
  exact ⟨by unfold delLong; linarith, h2⟩

theorem sin_delLong (d : ℝ) : sin (delLong d) = sin (hourAngle d) := sin_fix _ _ _

theorem cos_delLong (d : ℝ) : cos (delLong d) = cos (hourAngle d) := cos_fix _ _ _

theorem sin_hour_zero {a b : ℝ} : sin (hourAngle (a - b)) = 0 ↔ ∃ k : ℤ, a = b + 12 * k := by
  rw [sin_eq_zero_iff]
  unfold hourAngle
  constructor
  · rintro ⟨k, hk⟩
    refine ⟨k, ?_⟩
    have := pi_pos
    field_simp at hk
    linarith
  · rintro ⟨k, rfl⟩
    exact ⟨k, by ring⟩

theorem delLong_special (d : ℝ) : (delLong d = -π ∨ delLong d = 0 ∨ delLong d = π) ↔ sin (hourAngle d) = 0 := by
  rw [← sin_delLong]
  obtain ⟨h1, h2⟩ := delLong_range d
  constructor
  · rintro (h | h | h) <;> simp [h]
  · intro h
    rcases eq_or_lt_of_le h1 with h3 | h3
    · exact .inl h3.symm
    · right; left
      exact (sin_eq_zero_iff_of_lt_of_lt h3 h2).1 h

theorem delLong_special' (d : ℝ) : (delLong d = 0 ∨ |delLong d| = π) ↔ sin (hourAngle d) = 0 := by
  rw [← delLong_special]
  have hp := pi_pos
  constructor
  · rintro (h | h)
    · exact .inr (.inl h)
    · rcases abs_eq hp.le |>.1 h with h | h
      · exact .inr (.inr h)
      · exact .inl h
  · rintro (h | h | h)
    · right; rw [h, abs_neg, abs_of_pos hp]
    · exact .inl h
    · right; rw [h, abs_of_pos hp]

theorem poleAngle_off {dl da pl pa : ℝ} (h : sin (hourAngle (pl - dl)) ≠ 0) :
    poleAngle (some dl) (some da) (some pl) (some pa) = .ok (triangleAngle (delLong (pl - dl)) da pa) ∧
    poleAngleEntry (some dl) (some da) (some pl) (some pa) = .ok (triangleAngle (delLong (pl - dl)) da pa) := by
  have h1 := (delLong_special (pl - dl)).not.2 h
  have h2 := (delLong_special' (pl - dl)).not.2 h
  unfold delLong at h1 h2 ⊢
  constructor
  · unfold poleAngle ltDiff
    simp only [hr2rad_ok, bind, Except.bind]
    rw [if_neg h1]
    rfl
  · unfold poleAngleEntry ltDiff
    simp only [hr2rad_ok, bind, Except.bind]
    simp [h2]
    rfl

theorem poleAngle_on {dl da pl pa : ℝ} (h : sin (hourAngle (pl - dl)) = 0) :
    poleAngle (some dl) (some da) (some pl) (some pa) = .ok (some (if |pa| < |da| then 180 else 0)) ∧
    poleAngleEntry (some dl) (some da) (some pl) (some pa) = .ok (some (if |pa| < |da| then 180 else 0)) := by
  have h1 := (delLong_special (pl - dl)).2 h
  have h2 := (delLong_special' (pl - dl)).2 h
  unfold delLong at h1 h2
  constructor
  · unfold poleAngle ltDiff
    simp only [hr2rad_ok, bind, Except.bind]
    rw [if_pos h1]
    simp [gtF, pure, Except.pure]
  · unfold poleAngleEntry ltDiff
    simp only [hr2rad_ok, bind, Except.bind]
    rcases lt_or_ge |pa| |da| with hc | hc
    · simp [h2, gtF, leF, pure, Except.pure, hc, not_le.2 hc]
    · simp [h2, leF, pure, Except.pure, hc, not_lt.2 hc]

theorem cos_lat_pos {a : ℝ} (h : |a| < 90) : 0 < cos (radians a) := by
  obtain ⟨h1, h2⟩ := abs_lt.1 h
  apply cos_pos_of_mem_Ioo
  have e : radians (-90) = -(π / 2) := by rw [radians_neg, radians_90]
  constructor
  · rw [← e]; exact lt_of_not_ge (fun hc => by rw [radians_le] at hc; linarith)
  · rw [← radians_90]; exact lt_of_not_ge (fun hc => by rw [radians_le] at hc; linarith)

theorem sign_real {x : ℝ} (h : x ≠ 0) : (SignType.sign x : ℝ) = 1 ∨ (SignType.sign x : ℝ) = -1 := by
  rcases lt_or_gt_of_ne h with h | h
  · right; rw [sign_neg h]; simp
  · left; rw [sign_pos h]; simp

theorem tN_congr {a b L L' : ℝ} (h : cos L = cos L') : tN a b L = tN a b L' := by unfold tN; rw [h]

theorem tE_congr {b L L' : ℝ} (h : sin L = sin L') : tE b L = tE b L' := by unfold tE; rw [h]

theorem triangle_geometry {dl da pl pa : ℝ} (hda : |da| < 90) (hpa : pa ≠ 0)
    (h : sin (hourAngle (pl - dl)) ≠ 0) :
    triangleAngle (delLong (pl - dl)) da pa =
      some (degrees (angleAt (place da dl) (basePole (SignType.sign pa)) (place pa pl))) := by
  have hs := sign_real hpa
  rw [triangle_ok rfl hs (cos_lat_pos hda) (by rw [sin_delLong]; exact h), angleAt_eq hs (cos_lat_pos hda)]
  rw [tN_congr (cos_delLong _)]
  unfold tLen
  rw [tN_congr (cos_delLong _), tE_congr (sin_delLong _)]

/-- C40: off the meridian of the destination pole the returned angle is the angle at the data point of the spherical
triangle with the two poles, for single values and for array entries.  The base pole is that of the hemisphere of the
destination pole; a destination pole on the equator is excluded (see `C40_equator_refuted`). -/
theorem C40_off_meridian (dl da pl pa : ℝ) (hda : |da| < 90) (hpa : pa ≠ 0) (h : ∀ k : ℤ, pl ≠ dl + 12 * k) :
    poleAngle (some dl) (some da) (some pl) (some pa) =
      .ok (some (degrees (angleAt (place da dl) (basePole (SignType.sign pa)) (place pa pl)))) ∧
    poleAngleEntry (some dl) (some da) (some pl) (some pa) =
      .ok (some (degrees (angleAt (place da dl) (basePole (SignType.sign pa)) (place pa pl)))) := by
  have h' : sin (hourAngle (pl - dl)) ≠ 0 := by
    rw [Ne, sin_hour_zero]; push Not; exact h
  rw [← triangle_geometry hda hpa h']
  exact poleAngle_off h'

/-- C40: every number returned is in `[0, 180]`. -/
theorem C40_range (dl da pl pa : Option ℝ) (v : ℝ) (h : poleAngle dl da pl pa = .ok (some v)) : 0 ≤ v ∧ v ≤ 180 := by
  have key : ∀ L a b w, triangleAngle L a b = some w → 0 ≤ w ∧ w ≤ 180 := by
    intro L a b w hw
    unfold triangleAngle at hw
    simp only at hw
    split_ifs at hw
    simp only [bind, Option.bind, pure] at hw
    split at hw
    · cases hw
    · rename_i x hx
      simp only at hw
      split at hw
      · cases hw
      · rename_i y hy
        have hx0 : 0 ≤ x := by
          unfold npSqrt at hx
          split_ifs at hx
          rw [← Option.some.inj hx]; exact Real.sqrt_nonneg _
        have hy' : y = arccos x := by
          unfold npArccos at hy
          split_ifs at hy
          exact (Option.some.inj hy).symm
        have h0 := arccos_nonneg x
        have h1 := arccos_le_pi_div_two.2 hx0
        rw [← Option.some.inj hw, hy']
        have hp := pi_pos
        unfold degrees
        constructor
        · positivity
        · rw [div_le_iff₀ hp]; nlinarith
  unfold poleAngle at h
  split at h
  · simp at h
  · simp only [hr2rad_ok, bind, Except.bind] at h
    split_ifs at h
    · simp only [pure, Except.pure, Except.ok.injEq, Option.some.injEq] at h
      rw [← h]; norm_num
    · simp only [pure, Except.pure, Except.ok.injEq, Option.some.injEq] at h
      rw [← h]; norm_num
    · split at h
      · exact key _ _ _ _ (Except.ok.inj h)
      · simp [pure, Except.pure] at h

theorem hourAngle_even {pl dl : ℝ} (h : SameHour pl dl) :
    sin (hourAngle (pl - dl)) = 0 ∧ cos (hourAngle (pl - dl)) = 1 := by
  obtain ⟨k, rfl⟩ := h
  have : hourAngle (dl + k * 24 - dl) = k * (2 * π) := by unfold hourAngle; ring
  rw [this]
  exact ⟨by rw [sin_int_mul_two_pi], cos_int_mul_two_pi k⟩
where
  sin_int_mul_two_pi {k : ℤ} : sin (k * (2 * π)) = 0 := by
    have := sin_int_mul_pi (k * 2); push_cast at this; rw [← this]; ring_nf

theorem hourAngle_odd {pl dl : ℝ} (h : SameHour pl (dl + 12)) :
    sin (hourAngle (pl - dl)) = 0 ∧ cos (hourAngle (pl - dl)) = -1 := by
  obtain ⟨k, rfl⟩ := h
  have : hourAngle (dl + 12 + k * 24 - dl) = k * (2 * π) + π := by unfold hourAngle; ring
  rw [this, sin_add_pi, cos_add_pi, cos_int_mul_two_pi, hourAngle_even.sin_int_mul_two_pi]
  simp

theorem tN_same {a b L : ℝ} (h : cos L = 1) : tN a b L = sin (b - a) := by unfold tN; rw [h, sin_sub]; ring

theorem tN_opp {a b L : ℝ} (h : cos L = -1) : tN a b L = sin (b + a) := by unfold tN; rw [h, sin_add]; ring

theorem tLen_meridian {a b L : ℝ} (h : sin L = 0) : tLen a b L = |tN a b L| := by
  unfold tLen tE; rw [h]; simp [Real.sqrt_sq_eq_abs]

theorem degrees_zero : degrees 0 = 0 := by simp [degrees]

theorem degrees_pi : degrees π = 180 := by rw [← radians_180, degrees_radians]

theorem angle_pos {s t : ℝ} (h : 0 < s * t) (hs : s = 1 ∨ s = -1) : degrees (arccos (s * t / |t|)) = 0 := by
  have h0 : 0 < |t| := abs_pos.2 (by rintro rfl; simp at h)
  have : s * t = |t| := by
    rcases hs with rfl | rfl
    · rw [one_mul] at h ⊢; rw [abs_of_pos h]
    · rw [abs_of_neg (by linarith)]; ring
  rw [this, div_self h0.ne', arccos_one, degrees_zero]

theorem angle_neg {s t : ℝ} (h : s * t < 0) (hs : s = 1 ∨ s = -1) : degrees (arccos (s * t / |t|)) = 180 := by
  have h0 : 0 < |t| := abs_pos.2 (by rintro rfl; simp at h)
  have : s * t = -|t| := by
    rcases hs with rfl | rfl
    · rw [one_mul] at h ⊢; rw [abs_of_neg h]; ring
    · rw [abs_of_pos (by linarith)]; ring
  rw [this, neg_div, div_self h0.ne', arccos_neg_one, degrees_pi]

theorem radians_lt {a b : ℝ} (h : a < b) : radians a < radians b :=
  lt_of_not_ge (fun hc => by rw [radians_le] at hc; linarith)

theorem sin_deg_pos {x : ℝ} (h0 : 0 < x) (h1 : x < 180) : 0 < sin (radians x) := by
  apply sin_pos_of_pos_of_lt_pi
  · have := radians_lt h0; simpa [radians] using this
  · rw [← radians_180]; exact radians_lt h1

theorem sin_deg_neg {x : ℝ} (h0 : x < 0) (h1 : -180 < x) : sin (radians x) < 0 := by
  have := sin_deg_pos (x := -x) (by linarith) (by linarith)
  rw [radians_neg, sin_neg] at this
  linarith

/-- C40: on the meridian of the destination pole, in its hemisphere and away from it, the angle is the geometric one. -/
theorem C40_same_meridian (dl da pl pa : ℝ) (hm : SameHour pl dl) (hda : |da| < 90) (hpa : |pa| ≤ 90)
    (hh : 0 < da * pa) (hne : da ≠ pa) :
    poleAngle (some dl) (some da) (some pl) (some pa) =
      .ok (some (degrees (angleAt (place da dl) (basePole (SignType.sign pa)) (place pa pl)))) := by
  obtain ⟨h1, h2⟩ := hourAngle_even hm
  have hp0 : pa ≠ 0 := by rintro rfl; simp at hh
  have hs := sign_real hp0
  rw [(poleAngle_on h1).1, angleAt_eq hs (cos_lat_pos hda), tLen_meridian h1, tN_same h2, ← radians_sub]
  obtain ⟨b1, b2⟩ := abs_lt.1 hda
  obtain ⟨c1, c2⟩ := abs_le.1 hpa
  congr 2
  rcases lt_or_gt_of_ne hp0 with h | h
  · have hd : da < 0 := by nlinarith
    rw [abs_of_neg h, abs_of_neg hd, sign_neg h]
    simp only [SignType.coe_neg, SignType.coe_one]
    rcases lt_or_gt_of_ne hne with hc | hc
    · rw [if_pos (by linarith), angle_neg _ (.inr rfl)]
      have := sin_deg_pos (x := pa - da) (by linarith) (by linarith)
      linarith
    · rw [if_neg (by linarith), angle_pos _ (.inr rfl)]
      have := sin_deg_neg (x := pa - da) (by linarith) (by linarith)
      linarith
  · have hd : 0 < da := by nlinarith
    rw [abs_of_pos h, abs_of_pos hd, sign_pos h]
    simp only [SignType.coe_one]
    rcases lt_or_gt_of_ne hne with hc | hc
    · rw [if_neg (by linarith), angle_pos _ (.inl rfl)]
      have := sin_deg_pos (x := pa - da) (by linarith) (by linarith)
      linarith
    · rw [if_pos (by linarith), angle_neg _ (.inl rfl)]
      have := sin_deg_neg (x := pa - da) (by linarith) (by linarith)
      linarith

theorem radians_add (a b : ℝ) : radians (a + b) = radians a + radians b := by unfold radians; ring

theorem opposite_geometry {dl da pl pa : ℝ} (hm : SameHour pl (dl + 12)) (hda : |da| < 90) (hpa : |pa| ≤ 90)
    (hh : 0 < da * pa) :
    degrees (angleAt (place da dl) (basePole (SignType.sign pa)) (place pa pl)) = 0 := by
  obtain ⟨h1, h2⟩ := hourAngle_odd hm
  have hp0 : pa ≠ 0 := by rintro rfl; simp at hh
  have hs := sign_real hp0
  rw [angleAt_eq hs (cos_lat_pos hda), tLen_meridian h1, tN_opp h2, ← radians_add]
  obtain ⟨b1, b2⟩ := abs_lt.1 hda
  obtain ⟨c1, c2⟩ := abs_le.1 hpa
  apply angle_pos _ hs
  rcases lt_or_gt_of_ne hp0 with h | h
  · have hd : da < 0 := by nlinarith
    rw [sign_neg h]
    have := sin_deg_neg (x := pa + da) (by linarith) (by linarith)
    simp only [SignType.coe_neg, SignType.coe_one]
    linarith
  · have hd : 0 < da := by nlinarith
    rw [sign_pos h]
    have := sin_deg_pos (x := pa + da) (by linarith) (by linarith)
    simp only [SignType.coe_one]
    linarith

/-- C40 on the opposite meridian, as far as it holds: data no nearer to the base pole than the destination pole.
Missing: data nearer to the base pole (refuted below). -/
theorem C40_opposite_meridian_partial (dl da pl pa : ℝ) (hm : SameHour pl (dl + 12)) (hda : |da| < 90)
    (hpa : |pa| ≤ 90) (hh : 0 < da * pa) (hle : |da| ≤ |pa|) :
    poleAngle (some dl) (some da) (some pl) (some pa) =
      .ok (some (degrees (angleAt (place da dl) (basePole (SignType.sign pa)) (place pa pl)))) := by
  rw [opposite_geometry hm hda hpa hh, (poleAngle_on (hourAngle_odd hm).1).1, if_neg (not_lt.2 hle)]

/-- C40 is false for every data point across the base pole from the destination pole and nearer to the base pole:
180 is returned where the geometry gives 0. -/
theorem C40_opposite_meridian_refuted (dl da pl pa : ℝ) (hm : SameHour pl (dl + 12)) (hda : |da| < 90)
    (hpa : |pa| ≤ 90) (hh : 0 < da * pa) (hlt : |pa| < |da|) :
    poleAngle (some dl) (some da) (some pl) (some pa) = .ok (some 180) ∧
    degrees (angleAt (place da dl) (basePole (SignType.sign pa)) (place pa pl)) = 0 :=
  ⟨by rw [(poleAngle_on (hourAngle_odd hm).1).1, if_pos hlt], opposite_geometry hm hda hpa hh⟩

/-- C40 is false for data of the other hemisphere on the meridian of the destination pole, nearer to its own pole:
180 is returned where the geometry gives 0. -/
theorem C40_other_hemisphere_refuted (dl da pl pa : ℝ) (hm : SameHour pl dl) (hda : |da| < 90) (hpa : |pa| ≤ 90)
    (hh : da * pa < 0) (hlt : |pa| < |da|) :
    poleAngle (some dl) (some da) (some pl) (some pa) = .ok (some 180) ∧
    degrees (angleAt (place da dl) (basePole (SignType.sign pa)) (place pa pl)) = 0 := by
  obtain ⟨h1, h2⟩ := hourAngle_even hm
  have hp0 : pa ≠ 0 := by rintro rfl; simp at hh
  have hs := sign_real hp0
  refine ⟨by rw [(poleAngle_on h1).1, if_pos hlt], ?_⟩
  rw [angleAt_eq hs (cos_lat_pos hda), tLen_meridian h1, tN_same h2, ← radians_sub]
  obtain ⟨b1, b2⟩ := abs_lt.1 hda
  obtain ⟨c1, c2⟩ := abs_le.1 hpa
  apply angle_pos _ hs
  rcases lt_or_gt_of_ne hp0 with h | h
  · have hd : 0 < da := by nlinarith
    rw [sign_neg h]
    have := sin_deg_neg (x := pa - da) (by linarith) (by linarith)
    simp only [SignType.coe_neg, SignType.coe_one]
    linarith
  · have hd : da < 0 := by nlinarith
    rw [sign_pos h]
    have := sin_deg_pos (x := pa - da) (by linarith) (by linarith)
    simp only [SignType.coe_one]
    linarith

/-- C40 is false for a destination pole on the equator: NaN is returned although the triangle exists. -/
theorem C40_equator_refuted (dl da pl : ℝ) (h : ∀ k : ℤ, pl ≠ dl + 12 * k) :
    poleAngle (some dl) (some da) (some pl) (some 0) = .ok none := by
  have h' : sin (hourAngle (pl - dl)) ≠ 0 := by
    rw [Ne, sin_hour_zero]; push Not; exact h
  rw [(poleAngle_off h').1]
  unfold triangleAngle
  simp

theorem not_twelfth {x : ℝ} (h0 : 0 < x) (h1 : x < 12) (k : ℤ) : x ≠ 12 * k := by
  intro h
  have a : (0 : ℝ) < k := by linarith
  have b : (k : ℝ) < 1 := by linarith
  have a' : 0 < k := by exact_mod_cast a
  have b' : k < 1 := by exact_mod_cast b
  omega

/-- Data at 70 degrees and 3 h, pole at 85 degrees and 9 h: off the meridian. -/
example : |(70 : ℝ)| < 90 ∧ (85 : ℝ) ≠ 0 ∧ ∀ k : ℤ, (9 : ℝ) ≠ 3 + 12 * k := by
  refine ⟨by norm_num, by norm_num, fun k h => not_twelfth (x := 6) (by norm_num) (by norm_num) k (by linarith)⟩

/-- Data at 80 degrees and noon, pole at 75 degrees and midnight. -/
example : poleAngle (some 12) (some 80) (some 0) (some 75) = .ok (some 180) :=
  (C40_opposite_meridian_refuted 12 80 0 75 ⟨-1, by norm_num⟩ (by norm_num) (by norm_num) (by norm_num)
    (by norm_num)).1

/-! ## C66: single values and arrays agree -/

/-- C66 for the pole angle of numbers. -/
theorem C66_pole_angle (dl da pl pa : ℝ) :
    poleAngle (some dl) (some da) (some pl) (some pa) = poleAngleEntry (some dl) (some da) (some pl) (some pa) := by
  by_cases h : sin (hourAngle (pl - dl)) = 0
  · rw [(poleAngle_on h).1, (poleAngle_on h).2]
  · rw [(poleAngle_off h).1, (poleAngle_off h).2]

/-- C66 for the rotation of a vector of numbers, whatever the quadrants: same components, or both raise. -/
theorem C66_adjust (x : VIn) (n e p : ℝ) (hn : x.n = some n) (he : x.e = some e) (hp : x.ang = some p) :
    adjustArr [x] = (adjustOne x).map (fun o => [o]) := by
  classical
  unfold adjustArr adjustOne
  by_cases hN : x.IsNorm
  · simp only [List.any_cons, List.any_nil, Bool.or_false, hN, decide_true, if_true, true_and, List.map_cons,
      List.map_nil, decide_eq_true_eq]
    have e1 : (if x.vq = 0 then fun x => vectQuad x.n x.e else VIn.vq : VIn → ℤ) x
        = if x.vq = 0 then vectQuad x.n x.e else x.vq := by split_ifs <;> rfl
    have e2 : (if x.pq = 0 then fun x => poleQuad x.lt x.poleLt x.ang else VIn.pq : VIn → ℤ) x
        = if x.pq = 0 then poleQuad x.lt x.poleLt x.ang else x.pq := by split_ifs <;> rfl
    rw [e1, e2]
    generalize (if x.vq = 0 then vectQuad x.n x.e else x.vq) = vq
    generalize (if x.pq = 0 then poleQuad x.lt x.poleLt x.ang else x.pq) = pq
    by_cases c1 : inQuads pq = true
    · by_cases c2 : inQuads vq = true
      · have hnz : ¬ (n = 0 ∧ e = 0) := by
          rintro ⟨rfl, rfl⟩
          exact hN (.inl ⟨hn, he⟩)
        obtain ⟨b, hb, -⟩ := naz_spec hnz
        have hnaz := naz_eq hn he hnz hb
        have hvm : x.vmag = some (√(n ^ 2 + e ^ 2)) := by unfold VIn.vmag; rw [hn, he]
        have hd : ∃ d, destPolarTable pq vq b p = some d := by
          simp only [inQuads, decide_eq_true_eq] at c1 c2
          obtain ⟨c1, c1'⟩ := c1
          obtain ⟨c2, c2'⟩ := c2
          unfold destPolarTable
          interval_cases pq <;> interval_cases vq <;> simp
        obtain ⟨d, hd⟩ := hd
        have : normOut true pq vq x = normOut false pq vq x := by
          unfold normOut
          rw [hnaz, hp, hvm]
          simp [destPolarEntry, hd]
        simp [c1, c2, this, Except.map]
      · simp [c1, c2, Except.map]
    · simp [c1, Except.map]
  · simp [hN, Except.map]

/-- C66 is false for a NaN latitude on the meridian of the pole: 0 for single values, NaN in an array. -/
theorem C66_nan_latitude_refuted (t : ℝ) (pa : Option ℝ) :
    poleAngle (some t) none (some t) pa = .ok (some 0) ∧ poleAngleEntry (some t) none (some t) pa = .ok none := by
  have h : sin (hourAngle (t - t)) = 0 := by simp [hourAngle]
  have h1 := (delLong_special (t - t)).2 h
  have h2 := (delLong_special' (t - t)).2 h
  unfold delLong at h1 h2
  constructor
  · unfold poleAngle ltDiff
    simp only [hr2rad_ok, bind, Except.bind]
    rw [if_pos h1]
    cases pa <;> simp [gtF, pure, Except.pure]
  · unfold poleAngleEntry ltDiff
    simp only [hr2rad_ok, bind, Except.bind]
    cases pa <;> simp [h2, gtF, leF, pure, Except.pure]

/-! ## C67, C68: the rotation and the geometry together -/

/-- Vector product. -/
def cross (a b : V3) : V3 :=
  (a.2.1 * b.2.2 - a.2.2 * b.2.1, a.2.2 * b.1 - a.1 * b.2.2, a.1 * b.2.1 - a.2.1 * b.1)

/-- The horizontal vector with north component `n` and east component `e` at a place, as a vector of space. -/
noncomputable def horiz (lat lt n e : ℝ) : V3 :=
  (n * (northAt lat lt).1 + e * (eastAt lt).1, n * (northAt lat lt).2.1 + e * (eastAt lt).2.1,
    n * (northAt lat lt).2.2 + e * (eastAt lt).2.2)

/-- Component of a tangent vector `v` at `P` in the direction of the place `D` on the sphere. -/
noncomputable def towards (P D v : V3) : ℝ := dot v D / √(1 - dot D P ^ 2)

/-- Component of `v` 90 degrees to the right (clockwise from outside) of the direction of `D`. -/
noncomputable def rightOf (P D v : V3) : ℝ := dot v (cross D P) / √(1 - dot D P ^ 2)

theorem towards_eq (da dl pa pl n e : ℝ) :
    towards (place da dl) (place pa pl) (horiz da dl n e) =
      (n * tN (radians da) (radians pa) (hourAngle (pl - dl)) + e * tE (radians pa) (hourAngle (pl - dl))) /
        tLen (radians da) (radians pa) (hourAngle (pl - dl)) := by
  unfold towards
  rw [dot_places, tLen_eq]
  congr 1
  have : hourAngle (pl - dl) = hourAngle pl - hourAngle dl := by unfold hourAngle; ring
  rw [this]
  unfold dot horiz northAt eastAt place tN tE radians
  rw [cos_sub, sin_sub]
  ring

theorem rightOf_eq (da dl pa pl n e : ℝ) :
    rightOf (place da dl) (place pa pl) (horiz da dl n e) =
      (e * tN (radians da) (radians pa) (hourAngle (pl - dl)) - n * tE (radians pa) (hourAngle (pl - dl))) /
        tLen (radians da) (radians pa) (hourAngle (pl - dl)) := by
  unfold rightOf
  rw [dot_places, tLen_eq]
  congr 1
  have : hourAngle (pl - dl) = hourAngle pl - hourAngle dl := by unfold hourAngle; ring
  rw [this]
  unfold dot horiz northAt eastAt place cross tN tE radians
  simp only
  rw [cos_sub, sin_sub]
  have h1 := sin_sq_add_cos_sq (da * π / 180)
  have h2 := sin_sq_add_cos_sq (hourAngle dl)
  generalize da * π / 180 = a at *
  generalize pa * π / 180 = b at *
  generalize hourAngle dl = x at *
  generalize hourAngle pl = y at *
  linear_combination (n * cos b * (cos y * sin x - sin y * cos x)) * h1 + (e * cos a * sin b) * h2

/-- East exactly when the pole is less than twelve hours ahead. -/
theorem bearing_sin {d l p A : ℝ} (h : Bearing d l p A) :
    (A = p ∧ 0 ≤ sin (hourAngle (l - d))) ∨ (A = -p ∧ sin (hourAngle (l - d)) ≤ 0) := by
  obtain ⟨x, ⟨⟨k, hk⟩, h0, h1⟩, c⟩ := h
  have e : hourAngle (l - d) = hourAngle x - k * (2 * π) := by rw [hk]; unfold hourAngle; ring
  have es : sin (hourAngle (l - d)) = sin (hourAngle x) := by rw [e, sin_sub_int_mul_two_pi]
  rw [es]
  have hp := pi_pos
  rcases c with ⟨c, hA⟩ | ⟨c, hA⟩
  · left
    refine ⟨hA, sin_nonneg_of_nonneg_of_le_pi (by unfold hourAngle; positivity) ?_⟩
    unfold hourAngle; nlinarith
  · right
    refine ⟨hA, ?_⟩
    have : sin (hourAngle x) = -sin (hourAngle x - π) := by rw [sin_sub_pi]; ring
    rw [this]
    have : 0 ≤ sin (hourAngle x - π) := by
      apply sin_nonneg_of_nonneg_of_le_pi
      · unfold hourAngle; nlinarith
      · unfold hourAngle; nlinarith
    linarith

theorem bearing_exists (d l p : ℝ) : ∃ A, Bearing d l p A := by
  have h := loops_ahead d l
  rcases lt_or_ge (largeLoop (addLoop 0 24 (l - d))) 12 with c | c
  · exact ⟨p, _, h, .inl ⟨c, rfl⟩⟩
  · exact ⟨-p, _, h, .inr ⟨c, rfl⟩⟩

/-- Cosine and sine of the bearing in terms of the direction to the pole: `s` is the hemisphere of the pole. -/
theorem bearing_trig {d l da pa p A s : ℝ} (hda : |da| < 90) (hpa : |pa| ≤ 90) (hs : (SignType.sign pa : ℝ) = s)
    (hs1 : s = 1 ∨ s = -1) (h : sin (hourAngle (l - d)) ≠ 0)
    (hp : p = degrees (angleAt (place da d) (basePole s) (place pa l))) (hb : Bearing d l p A) :
    cos (radians A) = s * tN (radians da) (radians pa) (hourAngle (l - d)) / tLen (radians da) (radians pa) (hourAngle (l - d)) ∧
    sin (radians A) = tE (radians pa) (hourAngle (l - d)) / tLen (radians da) (radians pa) (hourAngle (l - d)) := by
  have hca := cos_lat_pos hda
  rw [angleAt_eq hs1 hca] at hp
  have hpos := tLen_pos (a := radians da) (b := radians pa) hca.ne' h
  have habs := abs_tN_le (radians da) (radians pa) (hourAngle (l - d))
  have hcb : 0 ≤ cos (radians pa) := by
    obtain ⟨c1, c2⟩ := abs_le.1 hpa
    apply cos_nonneg_of_mem_Icc
    have e : radians (-90) = -(π / 2) := by rw [radians_neg, radians_90]
    exact ⟨by rw [← e, radians_le]; exact c1, by rw [← radians_90, radians_le]; exact c2⟩
  have hsq : tLen (radians da) (radians pa) (hourAngle (l - d)) ^ 2 =
      tE (radians pa) (hourAngle (l - d)) ^ 2 + tN (radians da) (radians pa) (hourAngle (l - d)) ^ 2 := by
    unfold tLen; rw [Real.sq_sqrt (by positivity)]
  have hE : tE (radians pa) (hourAngle (l - d)) = cos (radians pa) * sin (hourAngle (l - d)) := rfl
  generalize tN (radians da) (radians pa) (hourAngle (l - d)) = u at *
  generalize tE (radians pa) (hourAngle (l - d)) = w at *
  generalize tLen (radians da) (radians pa) (hourAngle (l - d)) = y at *
  have ht : |s * u / y| ≤ 1 := by
    rw [abs_div, abs_mul, abs_of_pos hpos, div_le_one hpos]
    have : |s| = 1 := by rcases hs1 with rfl | rfl <;> simp
    rw [this, one_mul]; exact habs
  obtain ⟨t1, t2⟩ := abs_le.1 ht
  have hc : cos (radians p) = s * u / y := by rw [hp, radians_degrees, cos_arccos t1 t2]
  have hsn : sin (radians p) = |w| / y := by
    rw [hp, radians_degrees, sin_arccos, ← Real.sqrt_sq (show 0 ≤ |w| / y by positivity)]
    congr 1
    have hss : s ^ 2 = 1 := by rcases hs1 with rfl | rfl <;> norm_num
    rw [div_pow, div_pow, mul_pow, hss, sq_abs]
    field_simp
    linarith
  rcases bearing_sin hb with ⟨rfl, h0⟩ | ⟨rfl, h0⟩
  · refine ⟨hc, ?_⟩
    rw [hsn, abs_of_nonneg (by rw [hE]; exact mul_nonneg hcb h0)]
  · refine ⟨by rw [radians_neg, cos_neg, hc], ?_⟩
    rw [radians_neg, sin_neg, hsn, abs_of_nonpos (by rw [hE]; exact mul_nonpos_of_nonneg_of_nonpos hcb h0)]
    ring

/-- A vector and its pole as the code hands them from `calc_vec_pole_angle` to `adjust_vector`: numbers, the angle is
the one returned for them, quadrants computed by the code. -/
structure Linked (x : VIn) (da dl n e pa pl : ℝ) : Prop where
  lat : x.lat = some da
  lt : x.lt = some dl
  north : x.n = some n
  east : x.e = some e
  poleLat : x.poleLat = some pa
  poleLt : x.poleLt = some pl
  ang : poleAngle x.lt x.lat x.poleLt x.poleLat = .ok x.ang
  vq : x.vq = 0 ∨ x.vq = vectQuad x.n x.e
  pq : x.pq = 0 ∨ x.pq = poleQuad x.lt x.poleLt x.ang

/-- The result of the two steps off the meridian of the pole, for either hemisphere of the pole. -/
theorem linked_out {x : VIn} {da dl n e pa pl : ℝ} (hx : Linked x da dl n e pa pl) (hda : |da| < 90)
    (hpa0 : pa ≠ 0) (hpa : |pa| ≤ 90) (hlat : |pa| = 90 → da < pa) (h : ∀ k : ℤ, pl ≠ dl + 12 * k)
    (hne : ¬ (n = 0 ∧ e = 0)) :
    adjustOne x = .ok
      (some ((n * ((SignType.sign pa : ℝ) * tN (radians da) (radians pa) (hourAngle (pl - dl)))
          + e * tE (radians pa) (hourAngle (pl - dl))) / tLen (radians da) (radians pa) (hourAngle (pl - dl))),
        some ((e * ((SignType.sign pa : ℝ) * tN (radians da) (radians pa) (hourAngle (pl - dl)))
          - n * tE (radians pa) (hourAngle (pl - dl))) / tLen (radians da) (radians pa) (hourAngle (pl - dl))), x.z) := by
  have h' : sin (hourAngle (pl - dl)) ≠ 0 := by
    rw [Ne, sin_hour_zero]; push Not; exact h
  have hang := hx.ang
  rw [hx.lt, hx.lat, hx.poleLt, hx.poleLat, (C40_off_meridian dl da pl pa hda hpa0 h).1] at hang
  have hang := (Except.ok.inj hang).symm
  set p := degrees (angleAt (place da dl) (basePole (SignType.sign pa)) (place pa pl)) with hp
  obtain ⟨A, hA⟩ := bearing_exists dl pl p
  obtain ⟨hc, hs⟩ := bearing_trig hda hpa rfl (sign_real hpa0) h' hp hA
  obtain ⟨r0, r1⟩ := C40_range _ _ _ _ _ ((C40_off_meridian dl da pl pa hda hpa0 h).1)
  rw [← hp] at r0 r1
  have hpos := tLen_pos (a := radians da) (b := radians pa) (cos_lat_pos hda).ne' h'
  by_cases hb : |pa| < 90
  · have hw : tE (radians pa) (hourAngle (pl - dl)) ≠ 0 := mul_ne_zero (cos_lat_pos hb).ne' h'
    have hsA : sin (radians A) ≠ 0 := by rw [hs]; exact div_ne_zero hw hpos.ne'
    have hsp : sin (radians p) ≠ 0 := by
      rcases bearing_sin hA with ⟨h1, -⟩ | ⟨h1, -⟩
      · rw [← h1]; exact hsA
      · rw [h1, radians_neg, sin_neg] at hsA; exact fun hc => hsA (by rw [hc]; simp)
    have p0 : 0 < p := lt_of_le_of_ne r0 (fun hc => hsp (by rw [← hc]; simp [radians]))
    have p1 : p < 180 := lt_of_le_of_ne r1 (fun hc => hsp (by rw [hc, radians_180]; simp))
    have hR : Regular x n e p A := by
      refine ⟨hx.north, hx.east, hang, hne, p0, p1, ?_, dl, pl, hx.lt, hx.poleLt, hA, ?_⟩
      · rcases hx.vq with hv | hv
        · exact .inl hv
        · right; rw [hv, hx.north, hx.east]; exact (C41_vector_quadrant n e _).1 rfl
      · rcases hx.pq with hv | hv
        · exact .inl hv
        · right; rw [hv, hx.lt, hx.poleLt, hang]; exact (C41_pole_quadrant dl pl p _).1 rfl
    obtain ⟨o, ho, hr⟩ := C42_rotation_single x n e p A hR
    rw [ho, hr]
    unfold along
    have e1 : (A + 90) * π / 180 = radians A + π / 2 := by unfold radians; ring
    have e2 : A * π / 180 = radians A := rfl
    rw [e1, e2, cos_add_pi_div_two, sin_add_pi_div_two, hc, hs]
    congr 3
    · ring
    · congr 1
      ring
  · have hb : |pa| = 90 := le_antisymm hpa (not_lt.1 hb)
    have hcb : cos (radians pa) = 0 := by
      rcases (abs_eq (by norm_num)).1 hb with h1 | h1
      · rw [h1, radians_90, cos_pi_div_two]
      · rw [h1, radians_neg, radians_90, cos_neg, cos_pi_div_two]
    have hw : tE (radians pa) (hourAngle (pl - dl)) = 0 := by unfold tE; rw [hcb]; ring
    have hsA : sin (radians A) = 0 := by rw [hs, hw]; simp
    have hlen : tLen (radians da) (radians pa) (hourAngle (pl - dl)) = cos (radians da) := by
      have hca := cos_lat_pos hda
      unfold tLen
      rw [hw]
      unfold tN
      rw [hcb]
      have hsb : sin (radians pa) ^ 2 = 1 := by
        have := sin_sq_add_cos_sq (radians pa); rw [hcb] at this; linarith
      have : (0 : ℝ) ^ 2 + (cos (radians da) * sin (radians pa) - sin (radians da) * 0 * cos (hourAngle (pl - dl))) ^ 2
          = cos (radians da) ^ 2 := by
        linear_combination cos (radians da) ^ 2 * hsb
      rw [this, Real.sqrt_sq hca.le]
    have hN : (SignType.sign pa : ℝ) * tN (radians da) (radians pa) (hourAngle (pl - dl)) = cos (radians da) := by
      unfold tN
      rw [hcb]
      rcases (abs_eq (by norm_num)).1 hb with h1 | h1
      · rw [h1, radians_90, sin_pi_div_two, sign_pos (by norm_num)]; simp
      · rw [h1, radians_neg, radians_90, sin_neg, sin_pi_div_two, sign_neg (by norm_num)]; simp
    have hp0 : p = 0 := by
      rw [hp, angleAt_eq (sign_real hpa0) (cos_lat_pos hda), hN, hlen, div_self (cos_lat_pos hda).ne', arccos_one,
        degrees_zero]
    rw [C45_aligned_partial x da pa (by rw [hang, hp0]) hx.lat hx.poleLat (hlat hb), hx.north, hx.east, hN, hw, hlen]
    have := (cos_lat_pos hda).ne'
    congr 3
    · field_simp; simp
    · congr 1
      field_simp; simp

/-- C67: with a destination pole in the northern hemisphere, pole angle, quadrants and rotation together give the
components of the vector towards the destination pole and to the right of that direction, for every location off the
meridian of the pole. -/
theorem C67_northern (x : VIn) (da dl n e pa pl : ℝ) (hx : Linked x da dl n e pa pl) (hda : |da| < 90)
    (hpa0 : 0 < pa) (hpa : pa ≤ 90) (h : ∀ k : ℤ, pl ≠ dl + 12 * k) (hne : ¬ (n = 0 ∧ e = 0)) :
    adjustOne x = .ok (some (towards (place da dl) (place pa pl) (horiz da dl n e)),
      some (rightOf (place da dl) (place pa pl) (horiz da dl n e)), x.z) := by
  rw [towards_eq, rightOf_eq]
  have habs : |pa| = pa := abs_of_pos hpa0
  rw [linked_out hx hda hpa0.ne' (by rw [habs]; exact hpa)
    (fun hc => by rw [habs] at hc; have := (abs_lt.1 hda).2; linarith) h hne]
  rw [sign_pos hpa0]
  simp only [SignType.coe_one, one_mul]

/-- C68 as far as it holds: with a destination pole in the southern hemisphere the result is right when the north
component handed in is measured poleward (southward); the north component returned is then the one towards the
destination pole, the east component the one to its left.  Missing: true north components (refuted below). -/
theorem C68_poleward_partial (x : VIn) (da dl n e pa pl : ℝ) (hx : Linked x da dl n e pa pl) (hda : |da| < 90)
    (hpa0 : pa < 0) (hpa : -90 < pa) (h : ∀ k : ℤ, pl ≠ dl + 12 * k) (hne : ¬ (n = 0 ∧ e = 0)) :
    adjustOne x = .ok (some (towards (place da dl) (place pa pl) (horiz da dl (-n) e)),
      some (-rightOf (place da dl) (place pa pl) (horiz da dl (-n) e)), x.z) := by
  have habs : |pa| = -pa := abs_of_neg hpa0
  have hout := linked_out hx hda hpa0.ne (by rw [habs]; linarith)
    (fun hc => by rw [habs] at hc; linarith) h hne
  rw [sign_neg hpa0] at hout
  simp only [SignType.coe_neg, SignType.coe_one] at hout
  rw [towards_eq, rightOf_eq, hout]
  congr 3
  · ring
  · congr 1; ring

/-- C68 is false for every southern destination pole off the base pole, every location off its meridian and every
vector with an east component: the result is not that of the frame whose north points away from the destination
pole. -/
theorem C68_southern_refuted (x : VIn) (da dl n e pa pl : ℝ) (hx : Linked x da dl n e pa pl) (hda : |da| < 90)
    (hpa0 : pa < 0) (hpa : -90 < pa) (h : ∀ k : ℤ, pl ≠ dl + 12 * k) (he : e ≠ 0) :
    adjustOne x ≠ .ok (some (-towards (place da dl) (place pa pl) (horiz da dl n e)),
      some (-rightOf (place da dl) (place pa pl) (horiz da dl n e)), x.z) := by
  have habs : |pa| = -pa := abs_of_neg hpa0
  have h' : sin (hourAngle (pl - dl)) ≠ 0 := by
    rw [Ne, sin_hour_zero]; push Not; exact h
  have hout := linked_out hx hda hpa0.ne (by rw [habs]; linarith)
    (fun hc => by rw [habs] at hc; linarith) h (fun hc => he hc.2)
  rw [sign_neg hpa0] at hout
  simp only [SignType.coe_neg, SignType.coe_one] at hout
  intro hc
  rw [hout, towards_eq] at hc
  have hpos := tLen_pos (a := radians da) (b := radians pa) (cos_lat_pos hda).ne' h'
  have hw : tE (radians pa) (hourAngle (pl - dl)) ≠ 0 :=
    mul_ne_zero (cos_lat_pos (by rw [habs]; linarith)).ne' h'
  have h1 := Option.some.inj (Prod.mk.inj (Except.ok.inj hc)).1
  rw [← neg_div, div_left_inj' hpos.ne'] at h1
  have : e * tE (radians pa) (hourAngle (pl - dl)) = 0 := by linarith
  rcases mul_eq_zero.1 this with h2 | h2
  · exact he h2
  · exact hw h2

/-- The hypotheses are met, for example by a vector at 70 degrees and 3 h and a pole at 85 degrees and 9 h. -/
example : ∃ x, Linked x 70 3 (-1) 2 85 9 := by
  have h : ∀ k : ℤ, (9 : ℝ) ≠ 3 + 12 * k :=
    fun k h => not_twelfth (x := 6) (by norm_num) (by norm_num) k (by linarith)
  exact ⟨⟨some 3, some 70, some (-1), some 2, some 5, 0, some 9, some 85, _, 0⟩, rfl, rfl, rfl, rfl, rfl, rfl,
    (C40_off_meridian 3 70 9 85 (by norm_num) (by norm_num) h).1, .inl rfl, .inl rfl⟩

/-- And in the south. -/
example : ∃ x, Linked x (-70) 3 (-1) 2 (-85) 9 := by
  have h : ∀ k : ℤ, (9 : ℝ) ≠ 3 + 12 * k :=
    fun k h => not_twelfth (x := 6) (by norm_num) (by norm_num) k (by linarith)
  exact ⟨⟨some 3, some (-70), some (-1), some 2, some 5, 0, some 9, some (-85), _, 0⟩, rfl, rfl, rfl, rfl, rfl, rfl,
    (C40_off_meridian 3 (-70) 9 (-85) (by norm_num) (by norm_num) h).1, .inl rfl, .inl rfl⟩

end Ocb.Vec
