import Verif.Props.Double
import Verif.Lemmas.Time
import Verif.Props.Time

/-!
# `fix_range` in double precision
-/

set_option autoImplicit false

namespace Ocb.Dbl

open Ocb.Time (subLoop addLoop fixVal fixRange)

/-- A double that is small enough lies on a grid finer than `2 ^ E`. -/
theorem IsDouble.fine {x : ℝ} {E : ℤ} (h : IsDouble x) (hE : -1074 ≤ E) (hx : |x| ≤ 2 ^ (E + 53)) :
    ∃ k e : ℤ, -1074 ≤ e ∧ e ≤ E ∧ x = k * 2 ^ e ∧ |x| ≤ 2 ^ (e + 53) := by
  obtain ⟨m, e, hm, he, rfl⟩ := h
  rcases le_or_gt e E with h | h
  · refine ⟨m, e, he, h, rfl, ?_⟩
    rw [abs_mul, abs_of_pos (two_pos e), add_comm, two_add]
    apply mul_le_mul_of_nonneg_right _ (two_pos e).le
    exact_mod_cast hm.le
  · obtain ⟨k, hk⟩ := regrid h.le m
    exact ⟨k, E, hE, le_rfl, hk, hx⟩

/-- Adding a multiple of `2 ^ E` to a double up to `2 ^ (E + 53)` is exact if the size does not grow. -/
theorem IsDouble.add_grid {a b : ℝ} {E n : ℤ} (ha : IsDouble a) (hE : -1074 ≤ E) (hx : |a| ≤ 2 ^ (E + 53))
    (hb : b = n * 2 ^ E) (hs : |a + b| ≤ |a|) : IsDouble (a + b) := by
  obtain ⟨k, e, h1, h2, h3, h4⟩ := ha.fine hE hx
  obtain ⟨j, hj⟩ := regrid h2 n
  refine isDouble_grid (k := k + j) h1 ?_ (hs.trans h4)
  rw [hb, hj, h3]
  push_cast
  ring

/-- A sum of doubles that is smaller than both is exact. -/
theorem IsDouble.add_small {a b : ℝ} (ha : IsDouble a) (hb : IsDouble b) (h1 : |a + b| ≤ |a|) (h2 : |a + b| ≤ |b|) :
    IsDouble (a + b) := by
  obtain ⟨m, e, hm, he, h3⟩ := ha
  obtain ⟨n, f, hn, hf, h4⟩ := hb
  have size : ∀ (k g : ℤ), |k| < 2 ^ 53 → |(k : ℝ) * 2 ^ g| ≤ 2 ^ (g + 53) := by
    intro k g hk
    rw [abs_mul, abs_of_pos (two_pos g), add_comm, two_add]
    apply mul_le_mul_of_nonneg_right _ (two_pos g).le
    exact_mod_cast hk.le
  rcases le_total e f with h | h
  · obtain ⟨j, hj⟩ := regrid h n
    refine isDouble_grid (k := m + j) he ?_ (h1.trans (h3 ▸ size m e hm))
    rw [h4, hj, h3]; push_cast; ring
  · obtain ⟨j, hj⟩ := regrid h m
    refine isDouble_grid (k := j + n) hf ?_ (h2.trans (h4 ▸ size n f hn))
    rw [h4, h3, hj]; push_cast; ring

section Exact

variable {r : ℝ → ℝ} (hr : Nearest r) {p mn mx : ℝ} {E n : ℤ} (hE : -1074 ≤ E) (hp : 0 < p) (hn : p = n * 2 ^ E)

include hr hE hp hn

/-- The first loop is exact. -/
theorem subD (hm : p / 2 ≤ mx) (v : ℝ) (hd : IsDouble v) (hv : |v| ≤ 2 ^ (E + 53)) :
    While (fun s => decide (mx ≤ s)) (fun s => r (s - p)) v (subLoop mx p v) ∧ IsDouble (subLoop mx p v) ∧
      |subLoop mx p v| ≤ 2 ^ (E + 53) := by
  fun_induction subLoop mx p v with
  | case1 v h ih =>
    have hs : |v + -p| ≤ |v| := by
      rw [abs_of_nonneg (a := v) (by linarith [h.2])]
      exact abs_le.2 ⟨by linarith [h.2], by linarith⟩
    have hd' : IsDouble (v - p) := by
      rw [sub_eq_add_neg]
      exact hd.add_grid hE hv (n := -n) (by rw [hn]; push_cast; ring) hs
    obtain ⟨h1, h2, h3⟩ := ih hd' (by rw [sub_eq_add_neg]; exact hs.trans hv)
    refine ⟨.step (by simpa using h.2) ?_, h2, h3⟩
    simp only [hr.keep hd']
    exact h1
  | case2 v h =>
    exact ⟨.done (by simpa using fun h' => h ⟨hp, h'⟩), hd, hv⟩

/-- The second loop is exact but for the rounding of the last sum. -/
theorem addD (hm : mn ≤ p / 2) (hmn : IsDouble mn) (v : ℝ) (hd : IsDouble v) (hv : |v| ≤ 2 ^ (E + 53)) :
    While (fun s => decide (s < mn)) (fun s => r (s + p)) v (r (addLoop mn p v)) := by
  fun_induction addLoop mn p v with
  | case1 v h ih =>
    refine .step (by simpa using h.2) ?_
    rcases lt_or_ge (v + p) mn with h' | h'
    · have hs : |v + p| ≤ |v| := by
        rw [abs_of_nonpos (a := v) (by linarith)]
        exact abs_le.2 ⟨by linarith, by linarith⟩
      have hd' : IsDouble (v + p) := hd.add_grid hE hv hn hs
      simp only [hr.keep hd']
      exact ih hd' (hs.trans hv)
    · rw [Ocb.Time.addLoop_of_le h']
      exact .done (by simpa using hr.dbl_le hmn h')
  | case2 v h =>
    rw [hr.keep hd]
    exact .done (by simpa using not_lt.1 fun h' => h ⟨hp, h'⟩)

end Exact

/-- The outcome is unique. -/
theorem FixRange.det {r : ℝ → ℝ} {v mn mx : ℝ} {vr : Option ℝ} {o o' : Except PyErr ℝ} (h : FixRange r v mn mx vr o)
    (h' : FixRange r v mn mx vr o') : o = o' := by
  unfold FixRange at h h'
  split_ifs at h h' with h1
  · rw [h, h']
  · simp only at h h'
    split_ifs at h h' with h2
    · rw [h, h']
    · obtain ⟨y, z, a1, a2, rfl⟩ := h
      obtain ⟨y', z', b1, b2, rfl⟩ := h'
      obtain rfl := a1.det b1
      rw [a2.det b2]

/-- C143. Let the period be a double and a multiple of `2 ^ E`, and the value a double of size at most `2 ^ (E + 53)`, the
limits doubles with `mn ≤ p / 2 ≤ mx`.  Then `fix_range` in double precision returns, and returns the exact representative
rounded once. -/
theorem C143_rounded_once {r : ℝ → ℝ} (hr : Nearest r) {v mn mx : ℝ} {vr : Option ℝ} {E n : ℤ} (hE : -1074 ≤ E)
    (hn : vr.getD (mx - mn) = n * 2 ^ E) (hp : IsDouble (vr.getD (mx - mn))) (hmx : vr.getD (mx - mn) / 2 ≤ mx)
    (hmn : mn ≤ vr.getD (mx - mn) / 2) (dmn : IsDouble mn) (dv : IsDouble v) (hv : |v| ≤ 2 ^ (E + 53))
    (out : Except PyErr ℝ) : FixRange r v mn mx vr out ↔ out = (fixRange v mn mx vr).map r := by
  have e : vr.getD (r (mx - mn)) = vr.getD (mx - mn) := by
    cases vr with
    | none => exact hr.keep hp
    | some p => rfl
  have ex : FixRange r v mn mx vr ((fixRange v mn mx vr).map r) := by
    unfold FixRange fixRange
    simp only [e]
    split_ifs with h1 h2
    · rfl
    · rfl
    · push Not at h2
      obtain ⟨a, b, c⟩ := subD hr hE h2 hn hmx v dv hv
      exact ⟨_, _, a, addD hr hE h2 hn hmn dmn _ b c, rfl⟩
  exact ⟨fun h => h.det ex, fun h => h ▸ ex⟩

/-- C143. Nothing at all is lost if the value is not below the lower limit, or the lower limit is at least half a period
below zero: the result is the exact representative. -/
theorem C143_exact {r : ℝ → ℝ} (hr : Nearest r) {v mn mx : ℝ} {vr : Option ℝ} {E n : ℤ} (hE : -1074 ≤ E)
    (hn : vr.getD (mx - mn) = n * 2 ^ E) (hp : IsDouble (vr.getD (mx - mn))) (hmx : vr.getD (mx - mn) / 2 ≤ mx)
    (hmn : mn ≤ vr.getD (mx - mn) / 2) (dmn : IsDouble mn) (dv : IsDouble v) (hv : |v| ≤ 2 ^ (E + 53))
    (hlow : mn ≤ v ∧ vr.getD (mx - mn) ≤ mx - mn ∨ mn ≤ -(vr.getD (mx - mn) / 2))
    (out : Except PyErr ℝ) : FixRange r v mn mx vr out ↔ out = fixRange v mn mx vr := by
  rw [C143_rounded_once hr hE hn hp hmx hmn dmn dv hv]
  unfold fixRange
  split_ifs with h1
  · rfl
  · simp only
    split_ifs with h2
    · rfl
    · push Not at h2
      obtain ⟨-, hs, hb⟩ := subD hr hE h2 hn hmx v dv hv
      suffices h : IsDouble (fixVal v mn mx (vr.getD (mx - mn))) by
        show _ = Except.ok (r _) ↔ _
        rw [hr.keep h]
      unfold fixVal
      rcases hlow with ⟨hlow, hfit⟩ | hlow
      · have hge : mn ≤ subLoop mx (vr.getD (mx - mn)) v := by
          clear hs hv dv hb
          fun_induction subLoop mx (vr.getD (mx - mn)) v with
          | case1 v h ih => exact ih (by linarith [h.2])
          | case2 v h => exact hlow
        rwa [Ocb.Time.addLoop_of_le hge]
      · generalize subLoop mx (vr.getD (mx - mn)) v = y at hs hb
        generalize hpp : vr.getD (mx - mn) = p at *
        clear hv dv hmn
        fun_induction addLoop mn p y with
        | case1 y h ih =>
          have ha : |y + p| ≤ |y| := by
            rw [abs_of_nonpos (a := y) (by linarith [h.2])]
            exact abs_le.2 ⟨by linarith [h.2], by linarith [h.2]⟩
          exact ih (hs.add_grid hE hb hn ha) (ha.trans hb)
        | case2 y h => exact hs

/-- C144. The result of `fix_range` in double precision lies in the closed interval, and below the upper limit unless the
value was below the lower limit. -/
theorem C144_closed_partial {r : ℝ → ℝ} (hr : Nearest r) {v mn mx w : ℝ} {vr : Option ℝ} (dmn : IsDouble mn) (dmx : IsDouble mx)
    (hfit : vr.getD (r (mx - mn)) ≤ mx - mn) (h : FixRange r v mn mx vr (.ok w)) :
    mn ≤ w ∧ w ≤ mx ∧ (mn ≤ v → w < mx) := by
  unfold FixRange at h
  split_ifs at h with h1
  simp only at h
  split_ifs at h with h2
  obtain ⟨y, z, a, b, hw⟩ := h
  obtain rfl : w = z := by injection hw
  generalize vr.getD (r (mx - mn)) = p at *
  push Not at h1 h2
  have ya : y < mx := by simpa using (While.invariant (fun _ => True) (fun _ _ _ => trivial) a trivial).2
  have yb : mn ≤ v → mn ≤ y := fun hv => (While.invariant (fun s => mn ≤ s) (fun s _ hc => by
    simp only [decide_eq_true_eq] at hc
    exact hr.dbl_le dmn (by linarith)) a hv).1
  obtain ⟨zb, za⟩ := While.invariant (fun s => s ≤ mx) (fun s _ hc => by
    simp only [decide_eq_true_eq] at hc
    exact hr.le_dbl dmx (by linarith)) b ya.le
  refine ⟨by simpa using za, zb, fun hv => ?_⟩
  have : While (fun s => decide (s < mn)) (fun s => r (s + p)) y y := .done (by simpa using yb hv)
  rwa [b.det this]

/-- C144. Calling `fix_range` a second time, as `normal_coord` and `revert_coord` do, puts the result below the upper
limit. -/
theorem C144_twice {r : ℝ → ℝ} (hr : Nearest r) {v mn mx w w' : ℝ} {vr : Option ℝ} (dmn : IsDouble mn) (dmx : IsDouble mx)
    (hfit : vr.getD (r (mx - mn)) ≤ mx - mn) (h : FixRange r v mn mx vr (.ok w)) (h' : FixRange r w mn mx vr (.ok w')) :
    mn ≤ w' ∧ w' < mx ∧ (w < mx → w' = w) := by
  have h1 := C144_closed_partial hr dmn dmx hfit h
  have h2 := C144_closed_partial hr dmn dmx hfit h'
  refine ⟨h2.1, h2.2.2 h1.1, fun hw => ?_⟩
  unfold FixRange at h'
  split_ifs at h' with c1
  simp only at h'
  split_ifs at h' with c2
  obtain ⟨y, z, a, b, e⟩ := h'
  obtain rfl : w' = z := by injection e
  obtain rfl := a.det (.done (by simpa using hw))
  exact b.det (.done (by simpa using h1.1))

/-- A large double lies on a coarse grid. -/
theorem IsDouble.coarse {x : ℝ} {e : ℤ} (h : IsDouble x) (hx : 2 ^ (e + 52) ≤ |x|) : ∃ k : ℤ, x = k * 2 ^ e := by
  obtain ⟨m, f, hm, -, rfl⟩ := h
  rcases le_or_gt e f with h | h
  · exact regrid h m
  · exfalso
    have h1 : |(m : ℝ) * 2 ^ f| < 2 ^ (53 + f) := by
      rw [abs_mul, abs_of_pos (two_pos f), two_add]
      apply mul_lt_mul_of_pos_right _ (two_pos f)
      exact_mod_cast hm
    have h2 : (2 : ℝ) ^ (53 + f) ≤ 2 ^ (e + 52) := two_le (by omega)
    linarith

/-- Different multiples of `2 ^ e` are `2 ^ e` apart. -/
theorem grid_eq {e k j : ℤ} (h : |(k : ℝ) * 2 ^ e - j * 2 ^ e| < 2 ^ e) : k = j := by
  rw [← sub_mul, abs_mul, abs_of_pos (two_pos e)] at h
  have h1 : |(k : ℝ) - j| < 1 := by
    by_contra hc
    push Not at hc
    nlinarith [two_pos e]
  have h2 : |k - j| < 1 := by exact_mod_cast h1
  rw [Int.abs_lt_one_iff] at h2
  omega

/-- Adding less than half a unit in the last place has no effect. -/
theorem Nearest.absorb {r : ℝ → ℝ} (hr : Nearest r) {v d : ℝ} {e : ℤ} (dv : IsDouble v) (hv : 2 ^ (e + 52) < |v|)
    (hd : |d| < 2 ^ e / 2) : r (v + d) = v := by
  have hp := two_pos e
  have h1 := hr.best (v + d) v dv
  rw [sub_add_cancel_left, abs_neg] at h1
  have h2 : |r (v + d) - v| < 2 ^ e := by
    have := abs_add_le (r (v + d) - (v + d)) d
    rw [sub_add, add_sub_cancel_right] at this
    linarith
  obtain ⟨k, hk⟩ := dv.coarse hv.le
  have h3 : 2 ^ (e + 52) + 2 ^ e ≤ |v| := by
    have e1 : (2 : ℝ) ^ (e + 52) = ((2 ^ 52 : ℤ) : ℝ) * 2 ^ e := by rw [add_comm, two_add]; norm_num
    rw [hk, abs_mul, abs_of_pos hp, e1] at hv ⊢
    have h4 : ((2 ^ 52 : ℤ) : ℝ) < |(k : ℝ)| := lt_of_mul_lt_mul_right hv hp.le
    have h5 : 2 ^ 52 < |k| := by exact_mod_cast h4
    have h6 : 2 ^ 52 + 1 ≤ |k| := by omega
    have h7 : ((2 ^ 52 + 1 : ℤ) : ℝ) ≤ ((|k| : ℤ) : ℝ) := Int.cast_le.2 h6
    rw [Int.cast_abs] at h7
    push_cast at h7 ⊢
    nlinarith
  have h8 : 2 ^ (e + 52) ≤ |r (v + d)| := by
    have := abs_sub_abs_le_abs_sub v (r (v + d))
    rw [abs_sub_comm] at this
    linarith
  obtain ⟨j, hj⟩ := (hr.mem (v + d)).coarse h8
  rw [hj, hk] at h2
  rw [hj, hk, grid_eq h2]

/-- C145, refuted in general: a finite value outside the interval that is so large that the period is less than half a unit
in its last place makes the call loop forever. -/
theorem C145_large_refuted {r : ℝ → ℝ} (hr : Nearest r) {v mn mx : ℝ} {vr : Option ℝ} {e : ℤ} (dv : IsDouble v) (hm : mn < mx)
    (hp : 0 < vr.getD (r (mx - mn))) (hpe : vr.getD (r (mx - mn)) < 2 ^ e / 2) (hv : 2 ^ (e + 52) < |v|)
    (hout : v < mn ∨ mx ≤ v) : ¬ ∃ out, FixRange r v mn mx vr out := by
  rintro ⟨out, h⟩
  unfold FixRange at h
  rw [if_neg (not_le.2 hm)] at h
  simp only [if_neg (not_le.2 hp)] at h
  obtain ⟨y, z, a, b, -⟩ := h
  generalize vr.getD (r (mx - mn)) = p at *
  rcases hout with hout | hout
  · obtain rfl := a.det (.done (by simpa using hout.trans hm))
    refine While.diverges (fun s => s = y) (fun s hs => by simpa [hs] using hout) (fun s hs => ?_) rfl b
    rw [hs, hr.absorb dv hv (by rwa [abs_of_pos hp])]
  · refine While.diverges (fun s => s = v) (fun s hs => by simpa [hs] using hout) (fun s hs => ?_) rfl a
    rw [hs, sub_eq_add_neg, hr.absorb dv hv (by rwa [abs_neg, abs_of_pos hp])]

theorem isDouble_two {e : ℤ} (h : -1074 ≤ e) : IsDouble (2 ^ e) := ⟨1, e, by norm_num, h, by simp⟩

/-- C145. `fix_range` returns for every double for which the period is more than half a unit in the last place. -/
theorem C145_returns_partial {r : ℝ → ℝ} (hr : Nearest r) {v mn mx : ℝ} {vr : Option ℝ} {e : ℤ} (he : -1074 ≤ e)
    (hmn : mn ≤ 0) (hmx : 0 ≤ mx) (hpe : 2 ^ e / 2 < vr.getD (r (mx - mn))) (hpu : vr.getD (r (mx - mn)) ≤ 2 ^ (e + 53))
    (hv : |v| ≤ 2 ^ (e + 53)) : ∃ out, FixRange r v mn mx vr out := by
  unfold FixRange
  split_ifs with h1
  · exact ⟨_, rfl⟩
  · simp only
    generalize vr.getD (r (mx - mn)) = p at *
    have h2 : 0 < p := by linarith [two_pos e]
    simp only [if_neg (not_le.2 h2)]
    have hδ : 0 < p - 2 ^ e / 2 := by linarith
    have keep : ∀ x : ℝ, |x| ≤ 2 ^ (e + 53) → |r x| ≤ 2 ^ (e + 53) := fun x hx =>
      abs_le.2 ⟨hr.dbl_le (isDouble_two (by omega)).neg (abs_le.1 hx).1, hr.le_dbl (isDouble_two (by omega)) (abs_le.1 hx).2⟩
    obtain ⟨y, hy⟩ := While.exists_of_rank (c := fun s => decide (mx ≤ s)) (b := fun s => r (s - p))
      (fun s => (⌊(s - mx) / (p - 2 ^ e / 2)⌋ + 1).toNat) (fun s => |s| ≤ 2 ^ (e + 53)) (by
        intro s hs hc
        simp only [decide_eq_true_eq] at hc
        exact keep _ (abs_le.2 ⟨by linarith, by linarith [(abs_le.1 hs).2]⟩)) (by
        intro s hs hc
        simp only [decide_eq_true_eq] at hc
        have hb : |s - p| ≤ 2 ^ (e + 53) := abs_le.2 ⟨by linarith, by linarith [(abs_le.1 hs).2]⟩
        have h3 := (abs_le.1 (hr.err he hb)).2
        have h4 : (r (s - p) - mx) / (p - 2 ^ e / 2) ≤ (s - mx) / (p - 2 ^ e / 2) - 1 := by
          rw [div_le_iff₀ hδ, sub_mul, div_mul_cancel₀ _ hδ.ne']
          linarith
        have h5 := Int.floor_le_floor h4
        rw [Int.floor_sub_one] at h5
        have h6 : 0 ≤ ⌊(s - mx) / (p - 2 ^ e / 2)⌋ := Int.floor_nonneg.2 (div_nonneg (by linarith) hδ.le)
        omega) v hv
    have hy2 := (While.invariant (fun s => |s| ≤ 2 ^ (e + 53)) (fun s hs hc => by
        simp only [decide_eq_true_eq] at hc
        exact keep _ (abs_le.2 ⟨by linarith, by linarith [(abs_le.1 hs).2]⟩)) hy hv).1
    obtain ⟨z, hz⟩ := While.exists_of_rank (c := fun s => decide (s < mn)) (b := fun s => r (s + p))
      (fun s => (⌊(mn - s) / (p - 2 ^ e / 2)⌋ + 1).toNat) (fun s => |s| ≤ 2 ^ (e + 53)) (by
        intro s hs hc
        simp only [decide_eq_true_eq] at hc
        exact keep _ (abs_le.2 ⟨by linarith [(abs_le.1 hs).1], by linarith⟩)) (by
        intro s hs hc
        simp only [decide_eq_true_eq] at hc
        have hb : |s + p| ≤ 2 ^ (e + 53) := abs_le.2 ⟨by linarith [(abs_le.1 hs).1], by linarith⟩
        have h3 := (abs_le.1 (hr.err he hb)).1
        have h4 : (mn - r (s + p)) / (p - 2 ^ e / 2) ≤ (mn - s) / (p - 2 ^ e / 2) - 1 := by
          rw [div_le_iff₀ hδ, sub_mul, div_mul_cancel₀ _ hδ.ne']
          linarith
        have h5 := Int.floor_le_floor h4
        rw [Int.floor_sub_one] at h5
        have h6 : 0 ≤ ⌊(mn - s) / (p - 2 ^ e / 2)⌋ := Int.floor_nonneg.2 (div_nonneg (by linarith) hδ.le)
        omega) y hy2
    exact ⟨_, y, z, hy, hz, rfl⟩

theorem d24 : IsDouble 24 := by exact_mod_cast isDouble_nat (n := 24) (by norm_num)

theorem d360 : IsDouble 360 := by exact_mod_cast isDouble_nat (n := 360) (by norm_num)

theorem d180 : IsDouble 180 := by exact_mod_cast isDouble_nat (n := 180) (by norm_num)

/-- C145. For hours of the day `fix_range` returns exactly for the doubles up to `2 ^ 58` in size. -/
theorem C145_day {r : ℝ → ℝ} (hr : Nearest r) {v : ℝ} (dv : IsDouble v) :
    (∃ out, FixRange r v 0 24 none out) ↔ |v| ≤ 2 ^ 58 := by
  have e : (none : Option ℝ).getD (r (24 - 0)) = 24 := by
    show r (24 - 0) = 24
    rw [sub_zero, hr.keep d24]
  constructor
  · intro h
    by_contra hc
    push Not at hc
    refine C145_large_refuted hr (e := 6) dv (by norm_num) (by rw [e]; norm_num) (by rw [e]; norm_num) (by norm_num at hc ⊢; exact hc) ?_ h
    rcases le_or_gt 24 v with h1 | h1
    · exact .inr h1
    · left
      by_contra h2
      rw [abs_of_nonneg (by linarith)] at hc
      norm_num at hc
      linarith
  · intro h
    exact C145_returns_partial hr (e := 5) (by norm_num) le_rfl (by norm_num) (by rw [e]; norm_num) (by rw [e]; norm_num) (by norm_num at h ⊢; exact h)

/-- C145. For the degrees of `slt2glon` it returns exactly for the doubles up to `2 ^ 62` in size. -/
theorem C145_degrees {r : ℝ → ℝ} (hr : Nearest r) {v : ℝ} (dv : IsDouble v) :
    (∃ out, FixRange r v (-180) 360 (some 360) out) ↔ |v| ≤ 2 ^ 62 := by
  constructor
  · intro h
    by_contra hc
    push Not at hc
    refine C145_large_refuted hr (e := 10) dv (by norm_num) (by norm_num) (by norm_num) (by norm_num at hc ⊢; exact hc) ?_ h
    rcases le_or_gt 360 v with h1 | h1
    · exact .inr h1
    · left
      by_contra h2
      rcases abs_cases v with h3 | h3 <;> norm_num at hc <;> linarith
  · intro h
    exact C145_returns_partial hr (e := 9) (by norm_num) (by norm_num) (by norm_num) (by norm_num) (by norm_num) (by norm_num at h ⊢; exact h)

/-- C144, refuted: a negative number of hours above `-2 ^ -49` becomes 24, not a value below 24. -/
theorem C144_day_refuted {r : ℝ → ℝ} (hr : Nearest r) {v : ℝ} (dv : IsDouble v) (h0 : v < 0) (h1 : -(2 : ℝ) ^ (-49 : ℤ) < v)
    (out : Except PyErr ℝ) : FixRange r v 0 24 none out ↔ out = .ok 24 := by
  have hv : |v| ≤ 2 ^ ((3 : ℤ) + 53) := by
    rw [abs_of_neg h0]
    have : (2 : ℝ) ^ (-49 : ℤ) ≤ 2 ^ ((3 : ℤ) + 53) := two_le (by norm_num)
    linarith
  rw [C143_rounded_once hr (E := 3) (n := 3) (by norm_num) (by norm_num) (by norm_num; exact d24) (by norm_num) (by norm_num)
    isDouble_zero dv hv]
  have e1 : fixRange v 0 24 none = .ok (v + 24) := by
    have h49 : (2 : ℝ) ^ (-49 : ℤ) ≤ 1 := by norm_num
    exact Ocb.Time.C01_fix_range_unique v 0 24 (v + 24) (by norm_num) 1 (by norm_num) (by linarith) (by linarith)
  have e2 : r (v + 24) = 24 := by
    rw [add_comm]
    have hp := two_pos (-48)
    have b := hr.best (24 + v) 24 d24
    rw [sub_add_cancel_left, abs_neg, abs_of_neg h0] at b
    have e49 : (2 : ℝ) ^ (-48 : ℤ) = 2 * 2 ^ (-49 : ℤ) := by norm_num
    have h2 := (abs_le.1 b).1
    have h3 : r (24 + v) ≤ 24 := hr.le_dbl d24 (by linarith)
    have h4 : |r (24 + v) - 24| < 2 ^ (-48 : ℤ) := abs_lt.2 ⟨by linarith, by linarith⟩
    have h49 : (2 : ℝ) ^ (-49 : ℤ) ≤ 1 := by norm_num
    obtain ⟨k, hk⟩ := (hr.mem (24 + v)).coarse (e := -48) (by norm_num; rw [abs_of_nonneg (by linarith)]; linarith)
    have e24 : (24 : ℝ) = ((24 * 2 ^ 48 : ℤ) : ℝ) * 2 ^ (-48 : ℤ) := by norm_num
    rw [hk, e24] at h4
    rw [hk, grid_eq h4, ← e24]
  rw [e1]
  show _ = Except.ok (r (v + 24)) ↔ _
  rw [e2]

/-- 50.5 hours are 2.5 hours, exactly. -/
example : FixRange toDouble (101 / 2) 0 24 none (.ok (5 / 2)) := by
  rw [C143_exact toDouble_nearest (E := 3) (n := 3) (by norm_num) (by norm_num) (by norm_num; exact d24) (by norm_num) (by norm_num)
    isDouble_zero ⟨101, -1, by norm_num, by norm_num, by norm_num⟩
    (by rw [abs_of_nonneg (by norm_num)]; norm_num) (.inl ⟨by norm_num, by norm_num⟩)]
  exact (Ocb.Time.C01_fix_range_unique (101 / 2 : ℝ) 0 24 (5 / 2) (by norm_num) (-2) (by norm_num) (by norm_num) (by norm_num)).symm

example : FixRange toDouble (-(2 ^ (-50 : ℤ))) 0 24 none (.ok 24) :=
  (C144_day_refuted toDouble_nearest (isDouble_two (by norm_num)).neg (by norm_num) (by norm_num) _).2 rfl

/-- A finite number of hours for which `fix_range` never returns. -/
example : ¬ ∃ out, FixRange toDouble (2 ^ 60) 0 24 none out := by
  rw [C145_day toDouble_nearest (by exact_mod_cast isDouble_two (e := 60) (by norm_num))]
  rw [abs_of_nonneg (by norm_num)]
  norm_num

end Ocb.Dbl
