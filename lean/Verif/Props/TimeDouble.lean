import Verif.Props.RangeDouble

/-!
# The conversions of `ocb_time.py` in double precision
-/

set_option autoImplicit false

namespace Ocb.Dbl

open Ocb.Time (subLoop addLoop fixVal fixRange Tod datetime2hr)

/-- C146. Hours from degrees lie between 0 and 24, and below 24 if the degrees are not negative.  Missing: below 24 for
negative degrees, see `C146_deg2hr_refuted`. -/
theorem C146_deg2hr_partial {r : ℝ → ℝ} (hr : Nearest r) {lon h : ℝ} (hh : Deg2hr r lon (.ok h)) :
    0 ≤ h ∧ h ≤ 24 ∧ (0 ≤ lon → h < 24) := by
  have := C144_closed_partial hr isDouble_zero d24 (by rw [sub_zero]; exact (hr.keep d24).le) hh
  exact ⟨this.1, this.2.1, fun h0 => this.2.2 (hr.dbl_le isDouble_zero (by positivity))⟩

/-- C146. Hours from radians lie between 0 and 24, and below 24 if the radians are not negative. -/
theorem C146_rad2hr_partial {r : ℝ → ℝ} (hr : Nearest r) {lon h : ℝ} (hh : Rad2hr r lon (.ok h)) :
    0 ≤ h ∧ h ≤ 24 ∧ (0 ≤ lon → h < 24) := by
  have := C144_closed_partial hr isDouble_zero d24 (by rw [sub_zero]; exact (hr.keep d24).le) hh
  refine ⟨this.1, this.2.1, fun h0 => this.2.2 (hr.dbl_le isDouble_zero (div_nonneg ?_ (by unfold piD; norm_num)))⟩
  exact hr.dbl_le isDouble_zero (by positivity)

/-- C146, refuted: longitudes just below zero give 24 hours. -/
theorem C146_deg2hr_refuted {r : ℝ → ℝ} (hr : Nearest r) {lon : ℝ} (h0 : lon ≤ -(2 : ℝ) ^ (-1000 : ℤ))
    (h1 : -(2 : ℝ) ^ (-46 : ℤ) < lon) (out : Except PyErr ℝ) : Deg2hr r lon out ↔ out = .ok 24 := by
  have a : r (lon / 15) ≤ -(2 : ℝ) ^ (-1004 : ℤ) := by
    refine hr.le_dbl (isDouble_two (by norm_num)).neg ?_
    have : (2 : ℝ) ^ (-1000 : ℤ) = 16 * 2 ^ (-1004 : ℤ) := by
      have : (-1000 : ℤ) = 4 + -1004 := by norm_num
      rw [this, two_add]
      norm_num
    have := two_pos (-1004)
    rw [div_le_iff₀ (by norm_num)]
    linarith
  have b : -(9 * (2 : ℝ) ^ (-53 : ℤ)) ≤ r (lon / 15) := by
    refine hr.dbl_le (IsDouble.neg ⟨9, -53, by norm_num, by norm_num, by norm_num⟩) ?_
    have : (2 : ℝ) ^ (-46 : ℤ) = 128 * 2 ^ (-53 : ℤ) := by
      have : (-46 : ℤ) = 7 + -53 := by norm_num
      rw [this, two_add]
      norm_num
    have := two_pos (-53)
    rw [le_div_iff₀ (by norm_num)]
    linarith
  have e49 : (2 : ℝ) ^ (-49 : ℤ) = 16 * 2 ^ (-53 : ℤ) := by
    have : (-49 : ℤ) = 4 + -53 := by norm_num
    rw [this, two_add]
    norm_num
  exact C144_day_refuted hr (hr.mem _) (by linarith [two_pos (-1004)]) (by linarith [two_pos (-53)]) out

example : Deg2hr toDouble (-(2 ^ (-50 : ℤ))) (.ok 24) :=
  (C146_deg2hr_refuted toDouble_nearest (neg_le_neg (two_le (by norm_num)))
    (neg_lt_neg (zpow_lt_zpow_right₀ (by norm_num) (by norm_num))) _).2 rfl

/-- The exact rules of `fix_range` for the degrees of `slt2glon`. -/
theorem fix_degrees {r : ℝ → ℝ} (hr : Nearest r) {v : ℝ} (dv : IsDouble v) (hv : |v| ≤ 2 ^ 56) (out : Except PyErr ℝ) :
    FixRange r v (-180) 360 (some 360) out ↔ out = fixRange v (-180) 360 (some 360) :=
  C143_exact hr (vr := some 360) (E := 3) (n := 45) (by norm_num) (by norm_num) d360 (by norm_num) (by norm_num) d180.neg dv
    (by norm_num at hv ⊢; exact hv) (.inr (by norm_num)) out

/-- The rules of `fix_range` for hours. -/
theorem fix_hours {r : ℝ → ℝ} (hr : Nearest r) {v : ℝ} (dv : IsDouble v) (hv : |v| ≤ 2 ^ 56) (out : Except PyErr ℝ) :
    FixRange r v 0 24 none out ↔ out = (fixRange v 0 24 none).map r :=
  C143_rounded_once hr (E := 3) (n := 3) (by norm_num) (by norm_num) (by norm_num; exact d24) (by norm_num) (by norm_num)
    isDouble_zero dv (by norm_num at hv ⊢; exact hv) out

theorem fix_hours_nonneg {r : ℝ → ℝ} (hr : Nearest r) {v : ℝ} (dv : IsDouble v) (hv : |v| ≤ 2 ^ 56) (h0 : 0 ≤ v)
    (out : Except PyErr ℝ) : FixRange r v 0 24 none out ↔ out = fixRange v 0 24 none :=
  C143_exact hr (E := 3) (n := 3) (by norm_num) (by norm_num) (by norm_num; exact d24) (by norm_num) (by norm_num)
    isDouble_zero dv (by norm_num at hv ⊢; exact hv) (.inl ⟨h0, by norm_num⟩) out

/-- `hr2deg` with the limits it has by default. -/
theorem hr2deg_default {r : ℝ → ℝ} (hr : Nearest r) (lt : ℝ) (out : Except PyErr ℝ) :
    Hr2deg r lt (-180) 360 out ↔ FixRange r (r (lt * 15)) (-180) 360 (some 360) out := by
  have e : r (360 - -180) = 540 := by
    rw [show (360 : ℝ) - -180 = 540 by norm_num]
    exact hr.keep (by exact_mod_cast isDouble_nat (n := 540) (by norm_num))
  unfold Hr2deg
  rw [e, if_neg (by norm_num)]

/-- C146. Degrees from hours lie in the half-open default interval. -/
theorem C146_hr2deg_range {r : ℝ → ℝ} (hr : Nearest r) {lt d : ℝ} (hl : |lt| ≤ 2 ^ 52) (hh : Hr2deg r lt (-180) 360 (.ok d)) :
    -180 ≤ d ∧ d < 360 := by
  have hb : |r (lt * 15)| ≤ 2 ^ 56 := by
    have h1 : |lt * 15| ≤ 2 ^ (56 : ℤ) := by
      rw [abs_mul, abs_of_pos (by norm_num : (0 : ℝ) < 15)]
      norm_num at hl ⊢
      linarith
    have := abs_le.1 h1
    have h2 := abs_le.2 ⟨hr.dbl_le (isDouble_two (by norm_num)).neg this.1, hr.le_dbl (isDouble_two (by norm_num)) this.2⟩
    exact_mod_cast h2
  rw [hr2deg_default hr, fix_degrees hr (hr.mem _) hb] at hh
  obtain ⟨w, h1, h2, h3, -⟩ := Ocb.Time.C01_fix_range_in_interval (r (lt * 15)) (-180) 360 (some 360) (by norm_num)
    (by norm_num) (by norm_num)
  rw [h1] at hh
  obtain rfl : d = w := by injection hh
  exact ⟨h2, h3⟩

/-- C146. From hours of the day to degrees and back: no hour is moved by more than `3 · 2 ^ -49`, and midnight is not
crossed. -/
theorem C146_roundtrip {r : ℝ → ℝ} (hr : Nearest r) {h : ℝ} (dh : IsDouble h) (h0 : 0 ≤ h) (h1 : h < 24) :
    ∃ d h', Hr2deg r h (-180) 360 (.ok d) ∧ Deg2hr r d (.ok h') ∧ 0 ≤ h' ∧ h' < 24 ∧ |h' - h| ≤ 3 * 2 ^ (-49 : ℤ) := by
  have hu := two_pos (-48)
  have h24 : h ≤ 24 - 2 ^ (-48 : ℤ) := by
    rcases lt_or_ge h 16 with hs | hs
    · have : (2 : ℝ) ^ (-48 : ℤ) ≤ 1 := by norm_num
      linarith
    · obtain ⟨k, hk⟩ := dh.coarse (e := -48) (by norm_num; rwa [abs_of_nonneg h0])
      have e24 : (24 : ℝ) = ((24 * 2 ^ 48 : ℤ) : ℝ) * 2 ^ (-48 : ℤ) := by norm_num
      rw [hk, e24] at h1 ⊢
      have h2 := lt_of_mul_lt_mul_right h1 hu.le
      have h3 : k < 24 * 2 ^ 48 := by exact_mod_cast h2
      have h4 : k + 1 ≤ 24 * 2 ^ 48 := h3
      have h5 : ((k + 1 : ℤ) : ℝ) ≤ ((24 * 2 ^ 48 : ℤ) : ℝ) := Int.cast_le.2 h4
      rw [Int.cast_add, Int.cast_one] at h5
      nlinarith
  have e44 : (2 : ℝ) ^ (-44 : ℤ) = 16 * 2 ^ (-48 : ℤ) := by norm_num
  have e45 : (2 : ℝ) ^ (-44 : ℤ) / 2 = 16 * 2 ^ (-49 : ℤ) := by norm_num
  have e48 : (2 : ℝ) ^ (-48 : ℤ) / 2 = 2 ^ (-49 : ℤ) := by norm_num
  have ed := hr.err (x := h * 15) (e := -44) (by norm_num) (by
    rw [abs_of_nonneg (by positivity)]
    norm_num
    linarith)
  rw [e45] at ed
  have hd0 : 0 ≤ r (h * 15) := hr.dbl_le isDouble_zero (by positivity)
  have hd1 : r (h * 15) ≤ 360 - 2 ^ (-44 : ℤ) := by
    have m := hr.mono (x := h * 15) (y := 360 - 15 * 2 ^ (-48 : ℤ)) (by linarith)
    have dz : IsDouble (360 - 2 ^ (-44 : ℤ)) := isDouble_grid (e := -44) (k := 360 * 2 ^ 44 - 1) (by norm_num) (by norm_num)
      (by norm_num)
    have b := hr.best (360 - 15 * 2 ^ (-48 : ℤ)) _ dz
    have hlt : r (360 - 15 * 2 ^ (-48 : ℤ)) < 360 := by
      have b2 : |(360 - 2 ^ (-44 : ℤ) : ℝ) - (360 - 15 * 2 ^ (-48 : ℤ))| = 2 ^ (-48 : ℤ) := by
        rw [e44, show ((360 : ℝ) - 16 * 2 ^ (-48 : ℤ)) - (360 - 15 * 2 ^ (-48 : ℤ)) = -(2 ^ (-48 : ℤ)) by ring, abs_neg,
          abs_of_pos hu]
      rw [b2] at b
      linarith [(abs_le.1 b).2]
    have hge : 256 ≤ r (360 - 15 * 2 ^ (-48 : ℤ)) := hr.dbl_le (by exact_mod_cast isDouble_nat (n := 256) (by norm_num)) (by norm_num)
    obtain ⟨k, hk⟩ := (hr.mem (360 - 15 * 2 ^ (-48 : ℤ))).coarse (e := -44) (by
      rw [abs_of_nonneg (by linarith)]
      norm_num at hge ⊢
      exact hge)
    have hu4 := two_pos (-44)
    have e360 : (360 : ℝ) = ((360 * 2 ^ 44 : ℤ) : ℝ) * 2 ^ (-44 : ℤ) := by norm_num
    refine m.trans ?_
    rw [hk] at hlt ⊢
    rw [e360] at hlt ⊢
    have h2 := lt_of_mul_lt_mul_right hlt hu4.le
    have h3 : k < 360 * 2 ^ 44 := by exact_mod_cast h2
    have h4 : k + 1 ≤ 360 * 2 ^ 44 := h3
    have h5 : ((k + 1 : ℤ) : ℝ) ≤ ((360 * 2 ^ 44 : ℤ) : ℝ) := Int.cast_le.2 h4
    rw [Int.cast_add, Int.cast_one] at h5
    nlinarith
  set d := r (h * 15) with hd
  have hh0 : 0 ≤ r (d / 15) := hr.dbl_le isDouble_zero (by positivity)
  have hh1 : r (d / 15) ≤ 24 - 2 ^ (-48 : ℤ) := by
    refine hr.le_dbl (isDouble_grid (e := -48) (k := 24 * 2 ^ 48 - 1) (by norm_num) (by norm_num) (by norm_num)) ?_
    rw [div_le_iff₀ (by norm_num)]
    linarith
  have ed' := hr.err (x := d / 15) (e := -48) (by norm_num) (by
    rw [abs_of_nonneg (by positivity)]
    norm_num
    linarith)
  rw [e48] at ed'
  refine ⟨d, r (d / 15), ?_, ?_, hh0, by linarith, ?_⟩
  · rw [hr2deg_default hr, ← hd, fix_degrees hr (hd ▸ hr.mem _) (by rw [abs_of_nonneg hd0]; norm_num; linarith)]
    exact (Ocb.Time.C01_fix_range_inside _ _ _ _ (by norm_num) (by linarith) (by linarith)).symm
  · unfold Deg2hr
    rw [fix_hours_nonneg hr (hr.mem _) (by rw [abs_of_nonneg hh0]; norm_num; linarith) hh0]
    exact (Ocb.Time.C01_fix_range_inside _ _ _ _ (by norm_num) (by linarith) (by linarith)).symm
  · have b := abs_le.1 ed
    have b' := abs_le.1 ed'
    have p49 := two_pos (-49)
    clear e48 e45 e44 hd hd1 hh1 h24 hu
    generalize r (d / 15) = h' at *
    generalize (2 : ℝ) ^ (-49 : ℤ) = u at *
    exact abs_le.2 ⟨by linarith, by linarith⟩

/-- C146, refuted: the way from hours to degrees and back does not always return the hour.  One example, for every rule for
ties. -/
theorem C146_roundtrip_exact_refuted {r : ℝ → ℝ} (hr : Nearest r) : ∃ h, IsDouble h ∧ 0 ≤ h ∧ h < 24 ∧
    ∃ d h', Hr2deg r h (-180) 360 (.ok d) ∧ Deg2hr r d (.ok h') ∧ h' ≠ h := by
  have dh : IsDouble (3 / 2 + 8 * 2 ^ (-52 : ℤ)) := ⟨3 * 2 ^ 51 + 8, -52, by norm_num, by norm_num, by norm_num⟩
  refine ⟨3 / 2 + 8 * 2 ^ (-52 : ℤ), dh, by norm_num, by norm_num, ?_⟩
  have hd0 : 16 ≤ r ((3 / 2 + 8 * 2 ^ (-52 : ℤ)) * 15) :=
    hr.dbl_le (by exact_mod_cast isDouble_nat (n := 16) (by norm_num)) (by norm_num)
  have hd1 : r ((3 / 2 + 8 * 2 ^ (-52 : ℤ)) * 15) ≤ 23 :=
    hr.le_dbl (by exact_mod_cast isDouble_nat (n := 23) (by norm_num)) (by norm_num)
  obtain ⟨k, hk⟩ := (hr.mem ((3 / 2 + 8 * 2 ^ (-52 : ℤ)) * 15)).coarse (e := -48) (by
    rw [abs_of_nonneg (by linarith)]
    norm_num at hd0 ⊢
    exact hd0)
  have hE := hr.err (x := (3 / 2 + 8 * 2 ^ (-52 : ℤ)) * 15) (e := -48) (by norm_num) (by
    rw [abs_of_nonneg (by norm_num)]
    norm_num)
  have hkk : k = 6333186975989767 ∨ k = 6333186975989768 := by
    rw [hk] at hE
    have h := abs_le.1 hE
    have a1 : (6333186975989766 : ℝ) < k := by
      have h1 := h.1
      norm_num at h1
      linarith
    have a2 : (k : ℝ) < 6333186975989769 := by
      have h1 := h.2
      norm_num at h1
      linarith
    have a1' : (6333186975989766 : ℤ) < k := by exact_mod_cast a1
    have a2' : k < (6333186975989769 : ℤ) := by exact_mod_cast a2
    omega
  have hh0 : 0 ≤ r (r ((3 / 2 + 8 * 2 ^ (-52 : ℤ)) * 15) / 15) := hr.dbl_le isDouble_zero (by positivity)
  have hh1 : r (r ((3 / 2 + 8 * 2 ^ (-52 : ℤ)) * 15) / 15) ≤ 2 :=
    hr.le_dbl (by exact_mod_cast isDouble_nat (n := 2) (by norm_num)) (by rw [div_le_iff₀ (by norm_num)]; linarith)
  refine ⟨_, _, (hr2deg_default hr _ _).2 ((fix_degrees hr (hr.mem _) (by
      rw [abs_of_nonneg (by linarith)]; norm_num; linarith) _).2
        (Ocb.Time.C01_fix_range_inside _ _ _ _ (by norm_num) (by linarith) (by linarith)).symm),
    (fix_hours_nonneg hr (hr.mem _) (by rw [abs_of_nonneg hh0]; norm_num; linarith) hh0 _).2
      (Ocb.Time.C01_fix_range_inside _ _ _ _ (by norm_num) (by linarith) (by linarith)).symm, ?_⟩
  intro hc
  rcases hkk with rfl | rfl
  · have dy : IsDouble (3 / 2 + 7 * 2 ^ (-52 : ℤ)) := ⟨3 * 2 ^ 51 + 7, -52, by norm_num, by norm_num, by norm_num⟩
    have b := hr.best (r ((3 / 2 + 8 * 2 ^ (-52 : ℤ)) * 15) / 15) _ dy
    rw [hc, hk] at b
    norm_num at b
  · have dy : IsDouble (3 / 2 + 9 * 2 ^ (-52 : ℤ)) := ⟨3 * 2 ^ 51 + 9, -52, by norm_num, by norm_num, by norm_num⟩
    have b := hr.best (r ((3 / 2 + 8 * 2 ^ (-52 : ℤ)) * 15) / 15) _ dy
    rw [hc, hk] at b
    norm_num at b

/-- C147. The hour of the day in double precision is within `2 ^ -47` hours of the exact hour. -/
theorem C147_accuracy {r : ℝ → ℝ} (hr : Nearest r) {t : Tod} (ht : t.Valid) :
    |datetime2hrD r t - datetime2hr t| ≤ 2 ^ (-47 : ℤ) := by
  obtain ⟨h1, h2, h3, h4⟩ := ht
  have c1 : (t.hour : ℝ) ≤ 23 := by exact_mod_cast Nat.le_of_lt_succ h1
  have c2 : (t.minute : ℝ) ≤ 59 := by exact_mod_cast Nat.le_of_lt_succ h2
  have c3 : (t.second : ℝ) ≤ 59 := by exact_mod_cast Nat.le_of_lt_succ h3
  have c4 : (t.micro : ℝ) ≤ 999999 := by exact_mod_cast Nat.le_of_lt_succ h4
  have z1 : (0 : ℝ) ≤ t.hour := by positivity
  have z2 : (0 : ℝ) ≤ t.minute := by positivity
  have z3 : (0 : ℝ) ≤ t.second := by positivity
  have z4 : (0 : ℝ) ≤ t.micro := by positivity
  unfold datetime2hrD datetime2hr
  generalize (t.hour : ℝ) = a at *
  generalize (t.minute : ℝ) = b at *
  generalize (t.second : ℝ) = c at *
  generalize (t.micro : ℝ) = d at *
  have e0 := abs_le.1 (hr.err (x := 1 / 1000000) (e := -72) (by norm_num) (by norm_num))
  have m0 : 0 ≤ microD r := hr.dbl_le isDouble_zero (by norm_num)
  rw [show r (1 / 1000000) = microD r from rfl] at e0
  generalize microD r = m at *
  norm_num at e0
  have n1 : |d * m - d * (1 / 1000000)| ≤ 1 / 2 ^ 52 := by
    rw [← mul_sub, abs_mul, abs_of_nonneg z4]
    have : |m - 1 / 1000000| ≤ 1 / 2 ^ 73 := abs_le.2 ⟨by norm_num; linarith, by norm_num; linarith⟩
    calc d * |m - 1 / 1000000| ≤ 999999 * (1 / 2 ^ 73) := mul_le_mul c4 this (abs_nonneg _) (by norm_num)
      _ ≤ _ := by norm_num
  have n2 := abs_le.1 n1
  have p1 : 0 ≤ d * m := by positivity
  have p2 : d * m ≤ 1 := by
    norm_num at n2
    linarith
  have e1 := abs_le.1 (hr.err (x := d * m) (e := -53) (by norm_num) (by rw [abs_of_nonneg p1]; norm_num; exact p2))
  have q1 : 0 ≤ r (d * m) := hr.dbl_le isDouble_zero p1
  have q2 : r (d * m) ≤ 1 := hr.le_dbl (by exact_mod_cast isDouble_nat (n := 1) (by norm_num)) p2
  generalize r (d * m) = x1 at *
  have e2 := abs_le.1 (hr.err (x := c + x1) (e := -47) (by norm_num) (by
    rw [abs_of_nonneg (by positivity)]; norm_num; linarith))
  have q3 : 0 ≤ r (c + x1) := hr.dbl_le isDouble_zero (by positivity)
  have q4 : r (c + x1) ≤ 60 := hr.le_dbl (by exact_mod_cast isDouble_nat (n := 60) (by norm_num)) (by linarith)
  generalize r (c + x1) = x2 at *
  have e3 := abs_le.1 (hr.err (x := x2 / 3600) (e := -58) (by norm_num) (by
    rw [abs_of_nonneg (by positivity)]; norm_num; linarith))
  have q5 : 0 ≤ r (x2 / 3600) := hr.dbl_le isDouble_zero (by positivity)
  have q6 : r (x2 / 3600) ≤ 1 := hr.le_dbl (by exact_mod_cast isDouble_nat (n := 1) (by norm_num)) (by linarith)
  generalize r (x2 / 3600) = x3 at *
  have e4 := abs_le.1 (hr.err (x := b / 60) (e := -53) (by norm_num) (by
    rw [abs_of_nonneg (by positivity)]; norm_num; linarith))
  have q7 : 0 ≤ r (b / 60) := hr.dbl_le isDouble_zero (by positivity)
  have q8 : r (b / 60) ≤ 1 := hr.le_dbl (by exact_mod_cast isDouble_nat (n := 1) (by norm_num)) (by linarith)
  generalize r (b / 60) = x4 at *
  have e5 := abs_le.1 (hr.err (x := a + x4) (e := -48) (by norm_num) (by
    rw [abs_of_nonneg (by positivity)]; norm_num; linarith))
  have q9 : 0 ≤ r (a + x4) := hr.dbl_le isDouble_zero (by positivity)
  have q10 : r (a + x4) ≤ 24 := hr.le_dbl d24 (by linarith)
  generalize r (a + x4) = x5 at *
  have e6 := abs_le.1 (hr.err (x := x5 + x3) (e := -48) (by norm_num) (by
    rw [abs_of_nonneg (by positivity)]; norm_num; linarith))
  generalize r (x5 + x3) = x6 at *
  norm_num at e1 e2 e3 e4 e5 e6 n2 ⊢
  exact abs_le.2 ⟨by linarith, by linarith⟩

/-- C147. It is in the half-open day. -/
theorem C147_range {r : ℝ → ℝ} (hr : Nearest r) {t : Tod} (ht : t.Valid) : 0 ≤ datetime2hrD r t ∧ datetime2hrD r t < 24 := by
  constructor
  · unfold datetime2hrD
    have m0 : 0 ≤ microD r := hr.dbl_le isDouble_zero (by norm_num)
    have nn : ∀ x : ℝ, 0 ≤ x → 0 ≤ r x := fun x hx => hr.dbl_le isDouble_zero hx
    refine nn _ (add_nonneg (nn _ (add_nonneg (by positivity) (nn _ (by positivity)))) (nn _ (div_nonneg (nn _ (add_nonneg (by positivity) (nn _ (by positivity)))) (by norm_num))))
  · have h := abs_le.1 (C147_accuracy hr ht)
    have e := Ocb.Time.C06_datetime2hr_exact t
    have hm : t.micros ≤ 86400000000 - 1 := by
      obtain ⟨h1, h2, h3, h4⟩ := ht
      unfold Tod.micros
      omega
    have hm' : (t.micros : ℝ) ≤ 86400000000 - 1 := by
      have : ((t.micros : ℕ) : ℝ) ≤ ((86400000000 - 1 : ℕ) : ℝ) := Nat.cast_le.2 hm
      norm_num at this ⊢
      exact this
    norm_num at h
    linarith [h.2]

/-- C147. Later times of the day have greater hours. -/
theorem C147_strictMono {r : ℝ → ℝ} (hr : Nearest r) {s t : Tod} (hs : s.Valid) (ht : t.Valid) :
    datetime2hrD r s < datetime2hrD r t ↔ s.micros < t.micros := by
  have key : ∀ u w : Tod, u.Valid → w.Valid → u.micros < w.micros → datetime2hrD r u < datetime2hrD r w := by
    intro u w hu hw h
    have h1 := abs_le.1 (C147_accuracy hr hu)
    have h2 := abs_le.1 (C147_accuracy hr hw)
    rw [Ocb.Time.C06_datetime2hr_exact] at h1 h2
    have h3 : (u.micros : ℝ) + 1 ≤ w.micros := by exact_mod_cast h
    norm_num at h1 h2
    linarith [h1.2, h2.1]
  refine ⟨fun h => ?_, key s t hs ht⟩
  by_contra hc
  push Not at hc
  rcases hc.lt_or_eq with hc | hc
  · linarith [key t s ht hs hc]
  · have : s = t := by
      obtain ⟨h1, h2, h3, h4⟩ := hs
      obtain ⟨g1, g2, g3, g4⟩ := ht
      cases s; cases t
      unfold Tod.micros at hc
      simp only at *
      congr 1 <;> omega
    rw [this] at h
    exact lt_irrefl _ h

example : datetime2hrD toDouble ⟨23, 59, 59, 999999⟩ < 24 ∧
    datetime2hrD toDouble ⟨11, 59, 59, 999999⟩ < datetime2hrD toDouble ⟨12, 0, 0, 0⟩ :=
  ⟨(C147_range toDouble_nearest (by simp [Tod.Valid])).2,
    (C147_strictMono toDouble_nearest (by simp [Tod.Valid]) (by simp [Tod.Valid])).2 (by simp [Tod.micros])⟩

/-- C148. Solar local time in double precision: there is always a result, it is in the half-open day, and it is within
`2 ^ -45` hours of the exact solar local time up to whole days. -/
theorem C148_glon2slt {r : ℝ → ℝ} (hr : Nearest r) {glon : ℝ} (hg : |glon| ≤ 720) {t : Tod} (ht : t.Valid) :
    ∃ s, (∀ out, Glon2slt r glon t out ↔ out = .ok s) ∧ 0 ≤ s ∧ s < 24 ∧
      ∃ k : ℤ, |s - (glon / 15 + datetime2hr t + k * 24)| ≤ 2 ^ (-45 : ℤ) := by
  have g := abs_le.1 hg
  have hv : |glon / 15| ≤ 48 := abs_le.2 ⟨by linarith, by linarith⟩
  have hv' : |r (glon / 15)| ≤ 48 := by
    have d48 : IsDouble 48 := by exact_mod_cast isDouble_nat (n := 48) (by norm_num)
    exact abs_le.2 ⟨hr.dbl_le d48.neg (abs_le.1 hv).1, hr.le_dbl d48 (abs_le.1 hv).2⟩
  have e1 := abs_le.1 (hr.err (x := glon / 15) (e := -47) (by norm_num) (by norm_num; linarith))
  obtain ⟨w, f1, f2, f3, j, fj⟩ := Ocb.Time.C01_fix_range_in_interval (r (glon / 15)) 0 24 none (by norm_num) (by norm_num)
    (by norm_num)
  norm_num at fj
  have step1 : ∀ out, Deg2hr r glon out ↔ out = .ok (r w) := by
    intro out
    unfold Deg2hr
    rw [fix_hours hr (hr.mem _) (by norm_num; linarith), f1]
    rfl
  have e2 := abs_le.1 (hr.err (x := w) (e := -48) (by norm_num) (by rw [abs_of_nonneg f2]; norm_num; linarith))
  have l0 : 0 ≤ r w := hr.dbl_le isDouble_zero f2
  have l1 : r w ≤ 24 := hr.le_dbl d24 f3.le
  have u := C147_range hr ht
  have eu := abs_le.1 (C147_accuracy hr ht)
  have s0 : 0 ≤ r (r w + datetime2hrD r t) := hr.dbl_le isDouble_zero (by linarith)
  have s1 : r (r w + datetime2hrD r t) ≤ 48 := hr.le_dbl (by exact_mod_cast isDouble_nat (n := 48) (by norm_num)) (by linarith)
  have e3 := abs_le.1 (hr.err (x := r w + datetime2hrD r t) (e := -47) (by norm_num) (by
    rw [abs_of_nonneg (by linarith)]; norm_num; linarith))
  obtain ⟨z, g1, g2, g3, i, gi⟩ := Ocb.Time.C01_fix_range_in_interval (r (r w + datetime2hrD r t)) 0 24 none (by norm_num)
    (by norm_num) (by norm_num)
  norm_num at gi
  refine ⟨z, fun out => ?_, g2, g3, j + i, ?_⟩
  · unfold Glon2slt
    constructor
    · rintro ⟨lt, a, b⟩
      rw [step1] at a
      obtain rfl : lt = r w := by injection a
      rw [fix_hours_nonneg hr (hr.mem _) (by rw [abs_of_nonneg s0]; norm_num; linarith) s0, g1] at b
      exact b
    · rintro rfl
      refine ⟨r w, (step1 _).2 rfl, ?_⟩
      rw [fix_hours_nonneg hr (hr.mem _) (by rw [abs_of_nonneg s0]; norm_num; linarith) s0, g1]
  · rw [gi]
    norm_num at e1 e2 e3 eu ⊢
    generalize r (r w + datetime2hrD r t) = x3 at *
    generalize datetime2hrD r t = x2 at *
    generalize r w = x1 at *
    generalize datetime2hr t = x0 at *
    generalize r (glon / 15) = y0 at *
    exact abs_le.2 ⟨by linarith, by linarith⟩

/-- C148. Geographic longitude in double precision: there is always a result, it is in the half-open interval, and it is
within `2 ^ -41` degrees of the exact longitude up to whole turns. -/
theorem C148_slt2glon {r : ℝ → ℝ} (hr : Nearest r) {slt : ℝ} (hs : |slt| ≤ 48) {t : Tod} (ht : t.Valid) :
    ∃ g, (∀ out, Slt2glon r slt t out ↔ out = .ok g) ∧ -180 ≤ g ∧ g < 360 ∧
      ∃ k : ℤ, |g - ((slt - datetime2hr t) * 15 + k * 360)| ≤ 2 ^ (-41 : ℤ) := by
  have g := abs_le.1 hs
  have u := C147_range hr ht
  have eu := abs_le.1 (C147_accuracy hr ht)
  have d72 : IsDouble 72 := by exact_mod_cast isDouble_nat (n := 72) (by norm_num)
  have d1080 : IsDouble 1080 := by exact_mod_cast isDouble_nat (n := 1080) (by norm_num)
  have e1 := abs_le.1 (hr.err (x := slt - datetime2hrD r t) (e := -46) (by norm_num) (by
    rw [abs_le]; norm_num; constructor <;> linarith))
  have b1 : -72 ≤ r (slt - datetime2hrD r t) := hr.dbl_le d72.neg (by linarith)
  have b2 : r (slt - datetime2hrD r t) ≤ 72 := hr.le_dbl d72 (by linarith)
  generalize hx : r (slt - datetime2hrD r t) = x1 at *
  have e2 := abs_le.1 (hr.err (x := x1 * 15) (e := -42) (by norm_num) (by
    rw [abs_le]; norm_num; constructor <;> linarith))
  have b3 : -1080 ≤ r (x1 * 15) := hr.dbl_le d1080.neg (by linarith)
  have b4 : r (x1 * 15) ≤ 1080 := hr.le_dbl d1080 (by linarith)
  obtain ⟨w, f1, f2, f3, j, fj⟩ := Ocb.Time.C01_fix_range_in_interval (r (x1 * 15)) (-180) 360 (some 360) (by norm_num)
    (by norm_num) (by norm_num)
  norm_num at fj
  have step1 : ∀ out, Hr2deg r x1 (-180) 360 out ↔ out = .ok w := by
    intro out
    rw [hr2deg_default hr, fix_degrees hr (hr.mem _) (by rw [abs_le]; norm_num; constructor <;> linarith), f1]
  have step2 : ∀ out, FixRange r w (-180) 360 (some 360) out ↔ out = .ok w := by
    intro out
    have ex : FixRange r w (-180) 360 (some 360) (.ok w) := by
      unfold FixRange
      rw [if_neg (by norm_num)]
      simp only [Option.getD_some]
      rw [if_neg (by norm_num)]
      exact ⟨w, w, .done (by simpa using f3), .done (by simpa using f2), rfl⟩
    exact ⟨fun h => h.det ex, fun h => h ▸ ex⟩
  refine ⟨w, fun out => ?_, f2, f3, j, ?_⟩
  · unfold Slt2glon
    rw [hx]
    constructor
    · rintro ⟨lt, a, b⟩
      rw [step1] at a
      obtain rfl : lt = w := by injection a
      exact (step2 _).1 b
    · rintro rfl
      exact ⟨w, (step1 _).2 rfl, (step2 _).2 rfl⟩
  · rw [fj]
    norm_num at e1 e2 eu ⊢
    generalize datetime2hrD r t = x2 at *
    generalize datetime2hr t = x0 at *
    generalize r (x1 * 15) = y0 at *
    exact abs_le.2 ⟨by linarith, by linarith⟩

/-- C148. From solar local time to longitude and back: within `2 ^ -43` hours up to whole days. -/
theorem C148_roundtrip {r : ℝ → ℝ} (hr : Nearest r) {slt : ℝ} (hs : |slt| ≤ 48) {t : Tod} (ht : t.Valid) :
    ∃ g s, Slt2glon r slt t (.ok g) ∧ Glon2slt r g t (.ok s) ∧ ∃ k : ℤ, |s - (slt + k * 24)| ≤ 2 ^ (-43 : ℤ) := by
  obtain ⟨g, g1, g2, g3, j, gj⟩ := C148_slt2glon hr hs ht
  obtain ⟨s, s1, s2, s3, k, sk⟩ := C148_glon2slt hr (glon := g) (abs_le.2 ⟨by linarith, by linarith⟩) ht
  refine ⟨g, s, (g1 _).2 rfl, (s1 _).2 rfl, j + k, ?_⟩
  have a := abs_le.1 gj
  have b := abs_le.1 sk
  push_cast
  norm_num at a b ⊢
  exact abs_le.2 ⟨by linarith, by linarith⟩

example : ∃ g s, Slt2glon toDouble (15 / 2) ⟨13, 7, 59, 1⟩ (.ok g) ∧ Glon2slt toDouble g ⟨13, 7, 59, 1⟩ (.ok s) ∧
    ∃ k : ℤ, |s - (15 / 2 + k * 24)| ≤ 2 ^ (-43 : ℤ) :=
  C148_roundtrip toDouble_nearest (by rw [abs_of_nonneg (by norm_num)]; norm_num) (by simp [Tod.Valid])

end Ocb.Dbl
