import Verif.Lemmas.Time
import Mathlib.Tactic.NormNum
import Mathlib.Data.Rat.Floor

/-!
# Properties C01-C06: cyclic ranges and angle/hour conversions of `ocb_time.py`

The specifications used here are plain interval and congruence statements; "congruent modulo `r`" is spelled
out as "differs by an integer multiple of `r`".
-/

set_option autoImplicit false

namespace Ocb.Time

section FixRange

variable {K : Type*} [Field K] [LinearOrder K] [IsStrictOrderedRing K] [FloorRing K]

/-- C01, success: with valid limits and a positive period that fits the interval, the result is in the
half-open interval and congruent to the input. -/
theorem C01_fix_range_in_interval (v mn mx : K) (vr : Option K) (h : mn < mx)
    (hr : 0 < vr.getD (mx - mn)) (hfit : vr.getD (mx - mn) ≤ mx - mn) :
    ∃ w, fixRange v mn mx vr = .ok w ∧ mn ≤ w ∧ w < mx ∧ ∃ k : ℤ, w = v + k * vr.getD (mx - mn) :=
  ⟨_, fixRange_ok h rfl hr, fixVal_ge _ _ _ _ hr, fixVal_lt _ _ _ _ hr hfit, fixVal_congr _ _ _ _ hr⟩

/-- C01, any period: whatever the period, the result is congruent to the input and not below the minimum, and
it is in the interval as soon as the interval holds any number congruent to the input. -/
theorem C01_fix_range_any_period (v mn mx : K) (vr : Option K) (h : mn < mx) (hr : 0 < vr.getD (mx - mn)) :
    ∃ w, fixRange v mn mx vr = .ok w ∧ mn ≤ w ∧ (∃ k : ℤ, w = v + k * vr.getD (mx - mn)) ∧
      ((∃ k : ℤ, mn ≤ v + k * vr.getD (mx - mn) ∧ v + k * vr.getD (mx - mn) < mx) → w < mx) :=
  ⟨_, fixRange_ok h rfl hr, fixVal_ge _ _ _ _ hr, fixVal_congr _ _ _ _ hr, fun ⟨k, h1, h2⟩ =>
    fixVal_lt_of_exists hr k rfl h1 h2⟩

/-- C01, values already inside the interval are returned unchanged. -/
theorem C01_fix_range_inside (v mn mx : K) (vr : Option K) (hr : 0 < vr.getD (mx - mn))
    (h1 : mn ≤ v) (h2 : v < mx) : fixRange v mn mx vr = .ok v := by
  rw [fixRange_ok (lt_of_le_of_lt h1 h2) rfl hr, fixVal_id h1 h2]

/-- C01, uniqueness: when the period is the interval length, the result is the only number of the interval
that is congruent to the input. -/
theorem C01_fix_range_unique (v mn mx w : K) (h : mn < mx) (k : ℤ) (hw : w = v + k * (mx - mn))
    (h1 : mn ≤ w) (h2 : w < mx) : fixRange v mn mx none = .ok w := by
  rw [fixRange_ok (r := mx - mn) h rfl (by simpa using h), fixVal_unique (by simpa using h) rfl k hw h1 h2]

/-- C01, errors: `ValueError` is raised exactly for an empty interval or a non-positive period. -/
theorem C01_fix_range_error (v mn mx : K) (vr : Option K) :
    fixRange v mn mx vr = .error .valueError ↔ (mx ≤ mn ∨ vr.getD (mx - mn) ≤ 0) := by
  unfold fixRange
  split
  · simp_all
  · simp only
    split <;> simp_all

/-- C01, the only possible error is `ValueError`. -/
theorem C01_fix_range_only_value_error (v mn mx : K) (vr : Option K) (e : PyErr)
    (h : fixRange v mn mx vr = .error e) : e = .valueError := by
  unfold fixRange at h
  split at h
  · simpa using h.symm
  · simp only at h
    split at h
    · simpa using h.symm
    · simp at h

/-- C01, applying `fix_range` a second time changes nothing. -/
theorem C01_fix_range_idempotent (v w mn mx : K) (vr : Option K) (hfit : vr.getD (mx - mn) ≤ mx - mn)
    (h : fixRange v mn mx vr = .ok w) : fixRange w mn mx vr = .ok w := by
  have h0 : ¬ (mx ≤ mn ∨ vr.getD (mx - mn) ≤ 0) := by
    intro hc; rw [(C01_fix_range_error v mn mx vr).2 hc] at h; simp at h
  push Not at h0
  obtain ⟨w', h1, h2, h3, -⟩ := C01_fix_range_in_interval v mn mx vr h0.1 h0.2 hfit
  rw [h1] at h
  obtain rfl : w' = w := by simpa using h
  exact C01_fix_range_inside _ _ _ _ h0.2 h2 h3

example : fixRange (50 : ℚ) 0 24 none = .ok 2 :=
  C01_fix_range_unique 50 0 24 2 (by norm_num) (-2) (by norm_num) (by norm_num) (by norm_num)

example : fixRange (-190 : ℚ) (-180) 360 (some 360) = .ok 170 := by
  rw [fixRange_ok (r := 360) (by norm_num) rfl (by norm_num), fixVal, subLoop_of_lt (by norm_num),
    addLoop_of_lt (by norm_num) (by norm_num), addLoop_of_le (by norm_num)]
  norm_num

/-- A period wider than the interval can push the result out of the interval (here 10 with interval [0, 5)
and period 12 comes back as 10): the hypothesis that the period fits is needed. -/
theorem C01_fix_range_wide_period_refuted :
    ∃ (v mn mx r w : ℚ), mn < mx ∧ 0 < r ∧ fixRange v mn mx (some r) = .ok w ∧ ¬ w < mx := by
  refine ⟨10, 0, 5, 12, 10, by norm_num, by norm_num, ?_, by norm_num⟩
  rw [fixRange_ok (r := 12) (by norm_num) rfl (by norm_num), fixVal,
    subLoop_of_le (by norm_num) (by norm_num), subLoop_of_lt (by norm_num),
    addLoop_of_lt (by norm_num) (by norm_num), addLoop_of_le (by norm_num)]
  norm_num

/-- Specification for one array entry: NaN stays NaN, a finite number becomes what the scalar call returns. -/
def EntryFixed (mn mx : K) (vr : Option K) : Fl K → Fl K → Prop
  | .nan, y => y = .nan
  | .fin x, y => ∃ w, fixRange x mn mx vr = .ok w ∧ y = .fin w
  | .pinf, _ => False
  | .ninf, _ => False

/-- C02: on an array of finite and NaN entries the call returns, its result is determined, and each entry is
treated as it would be on its own. -/
theorem C02_fix_range_array_partial (xs : List (Fl K)) (mn mx : K) (vr : Option K)
    (hx : ∀ x ∈ xs, x ≠ .pinf ∧ x ≠ .ninf) (h : mn < mx) (hr : 0 < vr.getD (mx - mn)) :
    ∃ ys, (∀ out, FixRangeArr xs mn mx vr out ↔ out = .ok ys) ∧ List.Forall₂ (EntryFixed mn mx vr) xs ys := by
  have l1 := highLoop mx _ hr xs fun x h => (hx x h).1
  have l2 := lowLoop mn _ hr (xs.map (highFl mx (vr.getD (mx - mn)))) (by
    intro y hy
    obtain ⟨x, hx', rfl⟩ := List.mem_map.1 hy
    cases x with
    | ninf => exact absurd rfl (hx _ hx').2
    | _ => simp [highFl])
  refine ⟨(xs.map (highFl mx (vr.getD (mx - mn)))).map (lowFl mn (vr.getD (mx - mn))),
    fun out => ⟨fun hf => ?_, fun ho => ?_⟩, ?_⟩
  · rw [FixRangeArr, if_neg (not_le.2 h)] at hf
    simp only [if_neg (not_le.2 hr)] at hf
    obtain ⟨ys, zs, h1, h2, h3⟩ := hf
    obtain rfl := While.det l1 h1
    obtain rfl := While.det l2 h2
    exact h3
  · rw [FixRangeArr, if_neg (not_le.2 h)]
    simp only [if_neg (not_le.2 hr)]
    exact ⟨_, _, l1, l2, ho⟩
  · rw [List.map_map, List.forall₂_map_right_iff]
    refine List.forall₂_same.2 fun x hx' => ?_
    cases x with
    | nan => rfl
    | fin x => exact ⟨_, fixRange_ok h rfl hr, rfl⟩
    | pinf => exact absurd rfl (hx _ hx').1
    | ninf => exact absurd rfl (hx _ hx').2

/-- C02, errors come before the loops, whatever the array holds. -/
theorem C02_fix_range_array_error (xs : List (Fl K)) (mn mx : K) (vr : Option K)
    (h : mx ≤ mn ∨ vr.getD (mx - mn) ≤ 0) (out : Except PyErr (List (Fl K))) :
    FixRangeArr xs mn mx vr out ↔ out = .error .valueError := by
  unfold FixRangeArr
  by_cases h1 : mx ≤ mn
  · rw [if_pos h1]
  · rw [if_neg h1]
    simp only [if_pos (h.resolve_left h1)]

/-- C02, refuted part: with valid limits, an array that holds an infinity makes the call loop forever. -/
theorem C02_fix_range_infinite_diverges_refuted (xs : List (Fl K)) (mn mx : K) (vr : Option K)
    (hx : Fl.pinf ∈ xs ∨ Fl.ninf ∈ xs) (h : mn < mx) (hr : 0 < vr.getD (mx - mn)) :
    ¬ ∃ out, FixRangeArr xs mn mx vr out := by
  rintro ⟨out, hf⟩
  rw [FixRangeArr, if_neg (not_le.2 h)] at hf
  simp only [if_neg (not_le.2 hr)] at hf
  obtain ⟨ys, zs, h1, h2, -⟩ := hf
  rcases hx with hx | hx
  · exact highLoop_diverges _ _ _ _ hx h1
  · refine lowLoop_diverges _ _ _ _ ?_ h2
    exact (While.invariant (fun s => Fl.ninf ∈ s) (fun s hs _ =>
      List.mem_map.2 ⟨_, hs, by simp [isHigh, Fl.le]⟩) h1 hx).1

example : ∃ xs : List (Fl ℚ), xs = [.fin 50, .nan, .fin (-3)] ∧ (∀ x ∈ xs, x ≠ .pinf ∧ x ≠ .ninf) ∧
    FixRangeArr xs 0 24 none (.ok [.fin 2, .nan, .fin 21]) := by
  refine ⟨_, rfl, by simp, ?_⟩
  obtain ⟨ys, h1, h2⟩ := C02_fix_range_array_partial (K := ℚ) [.fin 50, .nan, .fin (-3)] 0 24 none (by simp)
    (by norm_num) (by norm_num)
  rw [h1]
  have e1 := C01_fix_range_unique (50 : ℚ) 0 24 2 (by norm_num) (-2) (by norm_num) (by norm_num) (by norm_num)
  have e2 := C01_fix_range_unique (-3 : ℚ) 0 24 21 (by norm_num) 1 (by norm_num) (by norm_num) (by norm_num)
  rcases h2 with _ | ⟨⟨w1, a1, rfl⟩, _ | ⟨rfl, _ | ⟨⟨w3, a3, rfl⟩, _ | _⟩⟩⟩
  rw [e1] at a1; rw [e2] at a3
  simp only [Except.ok.injEq] at a1 a3
  rw [a1, a3]

end FixRange

section Conversions

open Real

/-- C03: hours to degrees (in any requested range) and back gives the input reduced to `[0, 24)`. -/
theorem C03_deg2hr_hr2deg (x mn mx : ℝ) :
    ∃ d h, hr2deg x mn mx = .ok d ∧ deg2hr d = .ok h ∧ 0 ≤ h ∧ h < 24 ∧ ∃ k : ℤ, h = x + k * 24 := by
  refine ⟨_, _, hr2deg_ok _ _ _, deg2hr_ok _, fixVal_ge _ _ _ _ (by norm_num),
    fixVal_lt _ _ _ _ (by norm_num) (by norm_num), ?_⟩
  obtain ⟨j, hj⟩ := fixVal_congr (x * 15) (if mx - mn < 360 then mx - 360 else mn) mx 360 (by norm_num)
  obtain ⟨k, hk⟩ := fixVal_congr (fixVal (x * 15) (if mx - mn < 360 then mx - 360 else mn) mx 360 / 15) 0 24
    (24 : ℝ) (by norm_num)
  exact ⟨j + k, by rw [hk, hj]; push_cast; ring⟩

/-- C03: hours already in `[0, 24)` survive the trip through degrees unchanged. -/
theorem C03_deg2hr_hr2deg_inside (x mn mx : ℝ) (h0 : 0 ≤ x) (h1 : x < 24) :
    ∃ d, hr2deg x mn mx = .ok d ∧ deg2hr d = .ok x := by
  obtain ⟨d, h, e1, e2, h2, h3, k, hk⟩ := C03_deg2hr_hr2deg x mn mx
  have : h = x := congr_unique (r := 24) (by norm_num) k hk (by linarith) (by linarith)
  exact ⟨d, e1, this ▸ e2⟩

/-- C03: degrees to hours and back is the input up to whole turns. -/
theorem C03_hr2deg_deg2hr (lon mn mx : ℝ) :
    ∃ h d, deg2hr lon = .ok h ∧ hr2deg h mn mx = .ok d ∧ ∃ k : ℤ, d = lon + k * 360 := by
  refine ⟨_, _, deg2hr_ok _, hr2deg_ok _ _ _, ?_⟩
  obtain ⟨k, hk⟩ := fixVal_congr (lon / 15) 0 24 (24 : ℝ) (by norm_num)
  obtain ⟨j, hj⟩ := fixVal_congr (fixVal (lon / 15) 0 24 24 * 15) (if mx - mn < 360 then mx - 360 else mn) mx
    360 (by norm_num)
  exact ⟨j + k, by rw [hj, hk]; push_cast; ring⟩

/-- C03: hours to radians (in any requested range) and back gives the input reduced to `[0, 24)`. -/
theorem C03_rad2hr_hr2rad (x m : ℝ) :
    ∃ a h, hr2rad x m = .ok a ∧ rad2hr a = .ok h ∧ 0 ≤ h ∧ h < 24 ∧ ∃ k : ℤ, h = x + k * 24 := by
  have hp := pi_pos
  refine ⟨_, _, hr2rad_ok _ _, rad2hr_ok _, fixVal_ge _ _ _ _ (by norm_num),
    fixVal_lt _ _ _ _ (by norm_num) (by norm_num), ?_⟩
  obtain ⟨j, hj⟩ := fixVal_congr (x * π / 12) (m - 2 * π) m (2 * π) (by linarith)
  obtain ⟨k, hk⟩ := fixVal_congr (fixVal (x * π / 12) (m - 2 * π) m (2 * π) * 12 / π) 0 24 (24 : ℝ) (by norm_num)
  refine ⟨j + k, ?_⟩
  rw [hk, hj]; push_cast; field_simp; ring

/-- C03: radians to hours and back is the input up to whole turns, inside the requested range. -/
theorem C03_hr2rad_rad2hr (a m : ℝ) :
    ∃ h b, rad2hr a = .ok h ∧ hr2rad h m = .ok b ∧ m - 2 * π ≤ b ∧ b < m ∧ ∃ k : ℤ, b = a + k * (2 * π) := by
  have hp := pi_pos
  refine ⟨_, _, rad2hr_ok _, hr2rad_ok _ _, fixVal_ge _ _ _ _ (by linarith),
    fixVal_lt _ _ _ _ (by linarith) (by linarith), ?_⟩
  obtain ⟨k, hk⟩ := fixVal_congr (a * 12 / π) 0 24 (24 : ℝ) (by norm_num)
  obtain ⟨j, hj⟩ := fixVal_congr (fixVal (a * 12 / π) 0 24 24 * π / 12) (m - 2 * π) m (2 * π) (by linarith)
  refine ⟨j + k, ?_⟩
  rw [hj, hk]; push_cast; field_simp; ring

/-- C03: a whole number of turns added to the input changes neither `deg2hr` nor `rad2hr`. -/
theorem C03_whole_turns (x : ℝ) (k : ℤ) :
    deg2hr (x + k * 360) = deg2hr x ∧ rad2hr (x + k * (2 * π)) = rad2hr x := by
  constructor
  · rw [deg2hr_ok, deg2hr_ok, fixVal_eq_iff_congr (by norm_num) (by norm_num) k]; ring
  · rw [rad2hr_ok, rad2hr_ok, fixVal_eq_iff_congr (by norm_num) (by norm_num) k]
    field_simp; ring

/-- C03: every hour value returned is in `[0, 24)`. -/
theorem C03_hours_in_day (x h : ℝ) (hx : deg2hr x = .ok h ∨ rad2hr x = .ok h) : 0 ≤ h ∧ h < 24 := by
  rcases hx with hx | hx
  · rw [deg2hr_ok] at hx
    obtain rfl : _ = h := by simpa using hx
    exact ⟨fixVal_ge _ _ _ _ (by norm_num), fixVal_lt _ _ _ _ (by norm_num) (by norm_num)⟩
  · rw [rad2hr_ok] at hx
    obtain rfl : _ = h := by simpa using hx
    exact ⟨fixVal_ge _ _ _ _ (by norm_num), fixVal_lt _ _ _ _ (by norm_num) (by norm_num)⟩

example : deg2hr 370 = .ok (2 / 3) := by
  rw [deg2hr_ok, fixVal_unique (w := 2 / 3) (by norm_num) (by norm_num) (-1) (by norm_num) (by norm_num)
    (by norm_num)]

/-- C04: `hr2deg` never raises and honours the requested range. -/
theorem C04_hr2deg_range (lt mn mx : ℝ) :
    ∃ d, hr2deg lt mn mx = .ok d ∧ d < mx ∧ (mx - mn < 360 → mx - 360 ≤ d) ∧ (360 ≤ mx - mn → mn ≤ d) ∧
      ∃ k : ℤ, d = lt * 15 + k * 360 := by
  refine ⟨_, hr2deg_ok _ _ _, ?_, ?_, ?_, fixVal_congr _ _ _ _ (by norm_num)⟩
  · refine fixVal_lt _ _ _ _ (by norm_num) ?_
    split <;> linarith
  · intro h; rw [if_pos h]; exact fixVal_ge _ _ _ _ (by norm_num)
  · intro h; rw [if_neg (by linarith)]; exact fixVal_ge _ _ _ _ (by norm_num)

/-- C04: values already in a wide enough range are only multiplied by 15. -/
theorem C04_hr2deg_inside (lt mn mx : ℝ) (h : 360 ≤ mx - mn) (h1 : mn ≤ lt * 15) (h2 : lt * 15 < mx) :
    hr2deg lt mn mx = .ok (lt * 15) := by
  rw [hr2deg_ok, if_neg (by linarith), fixVal_id h1 h2]

example : hr2deg 30 0 180 = .ok 90 := by
  rw [hr2deg_ok, if_pos (by norm_num), fixVal_unique (w := 90) (by norm_num) (by norm_num) (-1) (by norm_num)
    (by norm_num) (by norm_num)]

/-- C05: local time to longitude and back is the identity on `[0, 24)`, and reduces other local times to it. -/
theorem C05_glon2slt_slt2glon (slt : ℝ) (t : Tod) :
    ∃ g s, slt2glon slt t = .ok g ∧ -180 ≤ g ∧ g < 360 ∧ glon2slt g t = .ok s ∧ 0 ≤ s ∧ s < 24 ∧
      (∃ k : ℤ, s = slt + k * 24) ∧ (0 ≤ slt → slt < 24 → s = slt) := by
  refine ⟨_, _, slt2glon_ok _ _, fixVal_ge _ _ _ _ (by norm_num), fixVal_lt _ _ _ _ (by norm_num) (by norm_num),
    glon2slt_ok _ _, fixVal_ge _ _ _ _ (by norm_num), fixVal_lt _ _ _ _ (by norm_num) (by norm_num), ?_⟩
  set g := fixVal ((slt - datetime2hr t) * 15) (-180) 360 360 with hg
  obtain ⟨i, hi⟩ := fixVal_congr ((slt - datetime2hr t) * 15) (-180) 360 (360 : ℝ) (by norm_num)
  obtain ⟨j, hj⟩ := fixVal_congr (g / 15) 0 24 (24 : ℝ) (by norm_num)
  obtain ⟨k, hk⟩ := fixVal_congr (fixVal (g / 15) 0 24 24 + datetime2hr t) 0 24 (24 : ℝ) (by norm_num)
  have key : ∃ k : ℤ, fixVal (fixVal (g / 15) 0 24 24 + datetime2hr t) 0 24 24 = slt + k * 24 :=
    ⟨i + j + k, by rw [hk, hj, hg, hi]; push_cast; ring⟩
  refine ⟨key, fun h0 h1 => ?_⟩
  obtain ⟨l, hl⟩ := key
  have h2 := fixVal_ge (fixVal (g / 15) 0 24 24 + datetime2hr t) 0 24 (24 : ℝ) (by norm_num)
  have h3 := fixVal_lt (fixVal (g / 15) 0 24 24 + datetime2hr t) 0 24 (24 : ℝ) (by norm_num) (by norm_num)
  exact congr_unique (r := 24) (by norm_num) l hl (by linarith) (by linarith)

/-- C05: longitude to local time and back is the longitude up to whole turns. -/
theorem C05_slt2glon_glon2slt (glon : ℝ) (t : Tod) :
    ∃ s g, glon2slt glon t = .ok s ∧ 0 ≤ s ∧ s < 24 ∧ slt2glon s t = .ok g ∧ -180 ≤ g ∧ g < 360 ∧
      ∃ k : ℤ, g = glon + k * 360 := by
  refine ⟨_, _, glon2slt_ok _ _, fixVal_ge _ _ _ _ (by norm_num),
    fixVal_lt _ _ _ _ (by norm_num) (by norm_num), slt2glon_ok _ _, fixVal_ge _ _ _ _ (by norm_num),
    fixVal_lt _ _ _ _ (by norm_num) (by norm_num), ?_⟩
  obtain ⟨j, hj⟩ := fixVal_congr (glon / 15) 0 24 (24 : ℝ) (by norm_num)
  obtain ⟨k, hk⟩ := fixVal_congr (fixVal (glon / 15) 0 24 24 + datetime2hr t) 0 24 (24 : ℝ) (by norm_num)
  set s := fixVal (fixVal (glon / 15) 0 24 24 + datetime2hr t) 0 24 24 with hs
  obtain ⟨i, hi⟩ := fixVal_congr ((s - datetime2hr t) * 15) (-180) 360 (360 : ℝ) (by norm_num)
  exact ⟨i + j + k, by rw [hi, hk, hj]; push_cast; ring⟩

/-- C05: the local time at longitude 0 is the universal time, and it grows by one hour per 15 degrees. -/
theorem C05_glon2slt_value (glon : ℝ) (t : Tod) :
    ∃ s, glon2slt glon t = .ok s ∧ ∃ k : ℤ, s = datetime2hr t + glon / 15 + k * 24 := by
  refine ⟨_, glon2slt_ok _ _, ?_⟩
  obtain ⟨j, hj⟩ := fixVal_congr (glon / 15) 0 24 (24 : ℝ) (by norm_num)
  obtain ⟨k, hk⟩ := fixVal_congr (fixVal (glon / 15) 0 24 24 + datetime2hr t) 0 24 (24 : ℝ) (by norm_num)
  exact ⟨j + k, by rw [hk, hj]; push_cast; ring⟩

/-- Microseconds since midnight: the order of times of day, written without the model's formula. -/
def Tod.micros (t : Tod) : ℕ := ((t.hour * 60 + t.minute) * 60 + t.second) * 1000000 + t.micro

/-- C06: hours of day are the exact elapsed time since midnight in hours. -/
theorem C06_datetime2hr_exact (t : Tod) : datetime2hr t = (t.micros : ℝ) / 3600000000 := by
  unfold datetime2hr Tod.micros; push_cast; ring

/-- C06: for a valid time of day the hours of day are in `[0, 24)`. -/
theorem C06_datetime2hr_range (t : Tod) (h : t.Valid) : 0 ≤ datetime2hr t ∧ datetime2hr t < 24 := by
  refine ⟨datetime2hr_nonneg t, ?_⟩
  obtain ⟨h1, h2, h3, h4⟩ := h
  rw [C06_datetime2hr_exact, div_lt_iff₀ (by norm_num)]
  have : t.micros < 24 * 3600000000 := by unfold Tod.micros; omega
  exact_mod_cast this

/-- C06: later times of day have strictly larger hours of day; equal hours mean the same time of day. -/
theorem C06_datetime2hr_strictMono (s t : Tod) (hs : s.Valid) (ht : t.Valid) :
    (s.micros < t.micros ↔ datetime2hr s < datetime2hr t) ∧ (datetime2hr s = datetime2hr t ↔ s = t) := by
  have e : ∀ u : Tod, datetime2hr u = (u.micros : ℝ) / 3600000000 := C06_datetime2hr_exact
  constructor
  · rw [e, e, div_lt_div_iff_of_pos_right (by norm_num)]; exact_mod_cast Iff.rfl
  · constructor
    · intro h
      rw [e, e, div_left_inj' (by norm_num)] at h
      have h' : s.micros = t.micros := by exact_mod_cast h
      obtain ⟨h1, h2, h3, h4⟩ := hs
      obtain ⟨g1, g2, g3, g4⟩ := ht
      unfold Tod.micros at h'
      cases s; cases t
      simp only [Tod.mk.injEq] at *
      refine ⟨?_, ?_, ?_, ?_⟩ <;> omega
    · rintro rfl; rfl

example : (⟨23, 59, 59, 999999⟩ : Tod).Valid := by unfold Tod.Valid; norm_num

end Conversions

end Ocb.Time
