import Verif.Model.Time
import Mathlib.Tactic.Positivity

/-! Helper lemmas for `Verif.Props.Time`. -/

set_option autoImplicit false

namespace Ocb

theorem While.det {σ : Type*} {c : σ → Bool} {b : σ → σ} {s t u : σ}
    (h1 : While c b s t) (h2 : While c b s u) : t = u := by
  induction h1 with
  | done h =>
    cases h2 with
    | done _ => rfl
    | step h' _ => simp [h] at h'
  | step h _ ih =>
    cases h2 with
    | done h' => simp [h] at h'
    | step _ h3 => exact ih h3

/-- A loop whose state keeps a property that forces another pass never stops. -/
theorem While.diverges {σ : Type*} {c : σ → Bool} {b : σ → σ} (I : σ → Prop)
    (hc : ∀ s, I s → c s = true) (hb : ∀ s, I s → I (b s)) {s t : σ} (hs : I s) :
    ¬ While c b s t := by
  intro h
  induction h with
  | done h => simp [hc _ hs] at h
  | step _ _ ih => exact ih (hb _ hs)

/-- A loop with a ranking function stops. -/
theorem While.exists_of_rank {σ : Type*} {c : σ → Bool} {b : σ → σ} (rank : σ → ℕ) (I : σ → Prop)
    (hI : ∀ s, I s → c s = true → I (b s)) (hr : ∀ s, I s → c s = true → rank (b s) < rank s)
    (s : σ) (hs : I s) : ∃ t, While c b s t := by
  induction hn : rank s using Nat.strong_induction_on generalizing s with
  | _ n ih =>
    cases hc : c s with
    | false => exact ⟨s, .done hc⟩
    | true =>
      obtain ⟨t, ht⟩ := ih (rank (b s)) (by rw [← hn]; exact hr s hs hc) (b s) (hI s hs hc) rfl
      exact ⟨t, .step hc ht⟩

/-- Whatever the loop preserves holds at its exit, together with the negated condition. -/
theorem While.invariant {σ : Type*} {c : σ → Bool} {b : σ → σ} (I : σ → Prop)
    (hb : ∀ s, I s → c s = true → I (b s)) {s t : σ} (h : While c b s t) (hs : I s) :
    I t ∧ c t = false := by
  induction h with
  | done h => exact ⟨hs, h⟩
  | step h _ ih => exact ih (hb _ hs h)

namespace Time

variable {K : Type*} [Field K] [LinearOrder K] [IsStrictOrderedRing K] [FloorRing K]

theorem subLoop_of_lt {mx r v : K} (h : v < mx) : subLoop mx r v = v := by
  rw [subLoop, if_neg]; rintro ⟨_, h'⟩; exact absurd h (not_lt.2 h')

theorem subLoop_of_le {mx r v : K} (hr : 0 < r) (h : mx ≤ v) : subLoop mx r v = subLoop mx r (v - r) := by
  rw [subLoop, if_pos ⟨hr, h⟩]

theorem addLoop_of_le {mn r v : K} (h : mn ≤ v) : addLoop mn r v = v := by
  rw [addLoop, if_neg]; rintro ⟨_, h'⟩; exact absurd h' (not_lt.2 h)

theorem addLoop_of_lt {mn r v : K} (hr : 0 < r) (h : v < mn) : addLoop mn r v = addLoop mn r (v + r) := by
  rw [addLoop, if_pos ⟨hr, h⟩]

theorem subLoop_spec (mx r v : K) (hr : 0 < r) :
    (∃ n : ℕ, subLoop mx r v = v - n * r) ∧ subLoop mx r v < mx ∧
      (mx ≤ v → mx - r ≤ subLoop mx r v) := by
  fun_induction subLoop mx r v with
  | case1 v h ih =>
    obtain ⟨⟨n, hn⟩, h2, h3⟩ := ih
    refine ⟨⟨n + 1, by rw [hn]; push_cast; ring⟩, h2, fun hv => ?_⟩
    rcases le_or_gt mx (v - r) with h4 | h4
    · exact h3 h4
    · rw [subLoop_of_lt h4]; linarith
  | case2 v h =>
    have h' : v < mx := by
      by_contra hc; exact h ⟨hr, not_lt.1 hc⟩
    exact ⟨⟨0, by simp⟩, h', fun hv => by linarith⟩

theorem addLoop_spec (mn r v : K) (hr : 0 < r) :
    (∃ n : ℕ, addLoop mn r v = v + n * r) ∧ mn ≤ addLoop mn r v ∧
      (v < mn → addLoop mn r v < mn + r) := by
  fun_induction addLoop mn r v with
  | case1 v h ih =>
    obtain ⟨⟨n, hn⟩, h2, h3⟩ := ih
    refine ⟨⟨n + 1, by rw [hn]; push_cast; ring⟩, h2, fun hv => ?_⟩
    rcases lt_or_ge (v + r) mn with h4 | h4
    · exact h3 h4
    · rw [addLoop_of_le h4]; linarith
  | case2 v h =>
    have h' : mn ≤ v := by
      by_contra hc; exact h ⟨hr, not_le.1 hc⟩
    exact ⟨⟨0, by simp⟩, h', fun hv => by linarith⟩

theorem fixVal_congr (v mn mx r : K) (hr : 0 < r) : ∃ k : ℤ, fixVal v mn mx r = v + k * r := by
  obtain ⟨⟨n, hn⟩, -, -⟩ := subLoop_spec mx r v hr
  obtain ⟨⟨m, hm⟩, -, -⟩ := addLoop_spec mn r (subLoop mx r v) hr
  exact ⟨m - n, by rw [fixVal, hm, hn]; push_cast; ring⟩

theorem fixVal_ge (v mn mx r : K) (hr : 0 < r) : mn ≤ fixVal v mn mx r :=
  (addLoop_spec mn r (subLoop mx r v) hr).2.1

theorem fixVal_lt (v mn mx r : K) (hr : 0 < r) (h : r ≤ mx - mn) : fixVal v mn mx r < mx := by
  have h1 := subLoop_spec mx r v hr
  have h2 := addLoop_spec mn r (subLoop mx r v) hr
  rcases lt_or_ge (subLoop mx r v) mn with h3 | h3
  · have := h2.2.2 h3
    rw [fixVal]; linarith
  · rw [fixVal, addLoop_of_le h3]; exact h1.2.1

theorem fixVal_id {v mn mx r : K} (h1 : mn ≤ v) (h2 : v < mx) : fixVal v mn mx r = v := by
  rw [fixVal, subLoop_of_lt h2, addLoop_of_le h1]

/-- Two congruent numbers less than one period apart are equal. -/
theorem congr_unique {r v w : K} (hr : 0 < r) (k : ℤ) (h : w = v + k * r) (h1 : v - r < w) (h2 : w < v + r) :
    w = v := by
  have h3 : (-1 : K) < k := by
    by_contra hc
    have : (k : K) * r ≤ -1 * r := mul_le_mul_of_nonneg_right (not_lt.1 hc) hr.le
    linarith
  have h4 : (k : K) < 1 := by
    by_contra hc
    have : 1 * r ≤ (k : K) * r := mul_le_mul_of_nonneg_right (not_lt.1 hc) hr.le
    linarith
  have h5 : -1 < k := by exact_mod_cast h3
  have h6 : k < 1 := by exact_mod_cast h4
  have : k = 0 := by omega
  rw [h, this]; simp

theorem fixVal_unique {v mn mx r w : K} (hr : 0 < r) (h : r = mx - mn) (k : ℤ) (hw : w = v + k * r)
    (h1 : mn ≤ w) (h2 : w < mx) : fixVal v mn mx r = w := by
  obtain ⟨j, hj⟩ := fixVal_congr v mn mx r hr
  have h3 := fixVal_ge v mn mx r hr
  have h4 := fixVal_lt v mn mx r hr h.le
  refine congr_unique hr (j - k) (by rw [hj, hw]; push_cast; ring) (by linarith) (by linarith)

/-- If the interval contains any number congruent to `v`, the result lies in the interval. -/
theorem fixVal_lt_of_exists {v mn mx r w : K} (hr : 0 < r) (k : ℤ) (hw : w = v + k * r)
    (h1 : mn ≤ w) (h2 : w < mx) : fixVal v mn mx r < mx := by
  rcases le_or_gt r (mx - mn) with h | h
  · exact fixVal_lt v mn mx r hr h
  have s := subLoop_spec mx r v hr
  have a := addLoop_spec mn r (subLoop mx r v) hr
  obtain ⟨j, hj⟩ := fixVal_congr v mn mx r hr
  have hge := fixVal_ge v mn mx r hr
  rcases lt_or_ge (subLoop mx r v) mn with h3 | h3
  · have h4 := a.2.2 h3
    have h5 : fixVal v mn mx r < mn + r := h4
    rcases lt_or_ge v mx with hv | hv
    · have : fixVal v mn mx r = w := by
        refine congr_unique hr (j - k) (by rw [hj, hw]; push_cast; ring) (by linarith) (by linarith)
      linarith
    · have h6 := s.2.2 hv
      obtain ⟨⟨n, hn⟩, _⟩ := s
      have : subLoop mx r v = w := by
        refine congr_unique hr (-n - k) (by rw [hn, hw]; push_cast; ring) (by linarith) (by linarith)
      linarith
  · rw [fixVal, addLoop_of_le h3]; exact s.2.1

theorem fixVal_eq_iff_congr {v w mn mx r : K} (hr : 0 < r) (h : r = mx - mn) (k : ℤ) (hw : w = v + k * r) :
    fixVal w mn mx r = fixVal v mn mx r := by
  obtain ⟨j, hj⟩ := fixVal_congr v mn mx r hr
  exact fixVal_unique hr h (j - k) (by rw [hj, hw]; push_cast; ring) (fixVal_ge _ _ _ _ hr)
    (fixVal_lt _ _ _ _ hr h.le)

theorem fixRange_ok {v mn mx r : K} {vr : Option K} (h1 : mn < mx) (hr : vr.getD (mx - mn) = r) (h2 : 0 < r) :
    fixRange v mn mx vr = .ok (fixVal v mn mx r) := by
  simp only [fixRange, hr]
  rw [if_neg (not_le.2 h1), if_neg (not_le.2 h2)]

/-! ### the array loops -/

/-- What the first loop makes of one entry. -/
def highFl (mx r : K) : Fl K → Fl K
  | .fin x => .fin (subLoop mx r x)
  | y => y

/-- What the second loop makes of one entry. -/
def lowFl (mn r : K) : Fl K → Fl K
  | .fin x => .fin (addLoop mn r x)
  | y => y

/-- Number of passes the first loop needs for one entry. -/
def highRank (mx r : K) : Fl K → ℕ
  | .fin x => (⌊(x - mx) / r⌋ + 1).toNat
  | _ => 0

/-- Number of passes the second loop needs for one entry. -/
def lowRank (mn r : K) : Fl K → ℕ
  | .fin x => ⌈(mn - x) / r⌉.toNat
  | _ => 0

theorem sum_map_lt {α : Type*} (f : α → α) (rank : α → ℕ) (p : α → Bool) (xs : List α)
    (hle : ∀ x ∈ xs, rank (f x) ≤ rank x) (hlt : ∀ x ∈ xs, p x = true → rank (f x) < rank x)
    (hany : xs.any p = true) : ((xs.map f).map rank).sum < (xs.map rank).sum := by
  have hle' : ∀ ys : List α, (∀ x ∈ ys, rank (f x) ≤ rank x) → ((ys.map f).map rank).sum ≤ (ys.map rank).sum := by
    intro ys
    induction ys with
    | nil => simp
    | cons y ys ih =>
      intro h
      have h1 := h y (by simp)
      have h2 := ih fun x hx => h x (by simp [hx])
      simp only [List.map_cons, List.sum_cons]
      omega
  induction xs with
  | nil => simp at hany
  | cons y ys ih =>
    have h1 := hle y (by simp)
    simp only [List.map_cons, List.sum_cons]
    by_cases hy : p y = true
    · have h2 := hlt y (by simp) hy
      have h3 := hle' ys fun x hx => hle x (by simp [hx])
      omega
    · have h2 := ih (fun x hx => hle x (by simp [hx])) (fun x hx => hlt x (by simp [hx])) (by
        simpa [hy] using hany)
      omega

theorem high_step_rank (mx r x : K) (hr : 0 < r) (h : mx ≤ x) :
    (⌊(x - r - mx) / r⌋ + 1).toNat < (⌊(x - mx) / r⌋ + 1).toNat := by
  have h1 : (x - r - mx) / r = (x - mx) / r - 1 := by field_simp; ring
  have h2 : 0 ≤ ⌊(x - mx) / r⌋ := Int.floor_nonneg.2 (div_nonneg (by linarith) hr.le)
  rw [h1, Int.floor_sub_one]
  omega

theorem low_step_rank (mn r x : K) (hr : 0 < r) (h : x < mn) :
    ⌈(mn - (x + r)) / r⌉.toNat < ⌈(mn - x) / r⌉.toNat := by
  have h1 : (mn - (x + r)) / r = (mn - x) / r - 1 := by field_simp; ring
  have h2 : 0 < ⌈(mn - x) / r⌉ := Int.ceil_pos.2 (div_pos (by linarith) hr)
  rw [h1, Int.ceil_sub_one]
  omega

/-- The entries that the loops can finish on. -/
def NoInf : Fl K → Prop
  | .pinf => False
  | .ninf => False
  | _ => True

theorem highLoop (mx r : K) (hr : 0 < r) (xs : List (Fl K)) (hx : ∀ x ∈ xs, x ≠ Fl.pinf) :
    While (fun s => s.any (isHigh mx)) (highPass mx r) xs (xs.map (highFl mx r)) := by
  obtain ⟨t, ht⟩ := While.exists_of_rank (c := fun s => s.any (isHigh mx)) (b := highPass mx r)
    (fun s => (s.map (highRank mx r)).sum) (fun s => ∀ x ∈ s, x ≠ Fl.pinf)
    (by
      intro s hs _ y hy
      simp only [highPass, List.mem_map] at hy
      obtain ⟨x, hx, rfl⟩ := hy
      split
      · cases x with
        | pinf => exact absurd rfl (hs _ hx)
        | _ => simp [subFl]
      · exact hs _ hx)
    (by
      intro s hs hc
      refine sum_map_lt _ _ (isHigh mx) s ?_ ?_ hc
      · intro x hx
        split
        · rename_i h
          cases x with
          | fin x =>
            simp only [isHigh, Fl.le, decide_eq_true_eq] at h
            exact (high_step_rank mx r x hr h).le
          | _ => simp [subFl]
        · exact le_rfl
      · intro x hx h
        rw [if_pos h]
        cases x with
        | fin x =>
          simp only [isHigh, Fl.le, decide_eq_true_eq] at h
          exact high_step_rank mx r x hr h
        | nan => simp [isHigh, Fl.le] at h
        | ninf => simp [isHigh, Fl.le] at h
        | pinf => exact absurd rfl (hs _ hx))
    xs hx
  have key := While.invariant (fun s => s.map (highFl mx r) = xs.map (highFl mx r)) (by
    intro s hs hc
    rw [← hs, highPass, List.map_map]
    refine List.map_congr_left fun x hx => ?_
    simp only [Function.comp]
    split
    · rename_i h
      cases x with
      | fin x =>
        simp only [isHigh, Fl.le, decide_eq_true_eq] at h
        simp only [subFl, highFl]
        rw [← subLoop_of_le hr h]
      | _ => rfl
    · rfl) ht rfl
  have : t = t.map (highFl mx r) := by
    have h2 := key.2
    simp only [List.any_eq_false] at h2
    conv_lhs => rw [← List.map_id t]
    refine List.map_congr_left fun x hx => ?_
    have h3 := h2 x hx
    cases x with
    | fin x =>
      simp only [isHigh, Fl.le, decide_eq_true_eq, not_le] at h3
      simp only [id, highFl]
      rw [subLoop_of_lt h3]
    | _ => rfl
  rw [← key.1, ← this]
  exact ht

theorem lowLoop (mn r : K) (hr : 0 < r) (xs : List (Fl K)) (hx : ∀ x ∈ xs, x ≠ Fl.ninf) :
    While (fun s => s.any (isLow mn)) (lowPass mn r) xs (xs.map (lowFl mn r)) := by
  obtain ⟨t, ht⟩ := While.exists_of_rank (c := fun s => s.any (isLow mn)) (b := lowPass mn r)
    (fun s => (s.map (lowRank mn r)).sum) (fun s => ∀ x ∈ s, x ≠ Fl.ninf)
    (by
      intro s hs _ y hy
      simp only [lowPass, List.mem_map] at hy
      obtain ⟨x, hx, rfl⟩ := hy
      split
      · cases x with
        | ninf => exact absurd rfl (hs _ hx)
        | _ => simp [addFl]
      · exact hs _ hx)
    (by
      intro s hs hc
      refine sum_map_lt _ _ (isLow mn) s ?_ ?_ hc
      · intro x hx
        split
        · rename_i h
          cases x with
          | fin x =>
            simp only [isLow, Fl.lt, decide_eq_true_eq] at h
            exact (low_step_rank mn r x hr h).le
          | _ => simp [addFl]
        · exact le_rfl
      · intro x hx h
        rw [if_pos h]
        cases x with
        | fin x =>
          simp only [isLow, Fl.lt, decide_eq_true_eq] at h
          exact low_step_rank mn r x hr h
        | nan => simp [isLow, Fl.lt] at h
        | pinf => simp [isLow, Fl.lt] at h
        | ninf => exact absurd rfl (hs _ hx))
    xs hx
  have key := While.invariant (fun s => s.map (lowFl mn r) = xs.map (lowFl mn r)) (by
    intro s hs hc
    rw [← hs, lowPass, List.map_map]
    refine List.map_congr_left fun x hx => ?_
    simp only [Function.comp]
    split
    · rename_i h
      cases x with
      | fin x =>
        simp only [isLow, Fl.lt, decide_eq_true_eq] at h
        simp only [addFl, lowFl]
        rw [← addLoop_of_lt hr h]
      | _ => rfl
    · rfl) ht rfl
  have : t = t.map (lowFl mn r) := by
    have h2 := key.2
    simp only [List.any_eq_false] at h2
    conv_lhs => rw [← List.map_id t]
    refine List.map_congr_left fun x hx => ?_
    have h3 := h2 x hx
    cases x with
    | fin x =>
      simp only [isLow, Fl.lt, decide_eq_true_eq, not_lt] at h3
      simp only [id, lowFl]
      rw [addLoop_of_le h3]
    | _ => rfl
  rw [← key.1, ← this]
  exact ht

omit [IsStrictOrderedRing K] [FloorRing K] in
theorem highLoop_diverges (mx r : K) (xs t : List (Fl K)) (hx : Fl.pinf ∈ xs) :
    ¬ While (fun s => s.any (isHigh mx)) (highPass mx r) xs t := by
  refine While.diverges (fun s => Fl.pinf ∈ s) ?_ ?_ hx
  · intro s hs
    exact List.any_eq_true.2 ⟨_, hs, by simp [isHigh, Fl.le]⟩
  · intro s hs
    exact List.mem_map.2 ⟨_, hs, by simp [isHigh, Fl.le, subFl]⟩

omit [IsStrictOrderedRing K] [FloorRing K] in
theorem lowLoop_diverges (mn r : K) (xs t : List (Fl K)) (hx : Fl.ninf ∈ xs) :
    ¬ While (fun s => s.any (isLow mn)) (lowPass mn r) xs t := by
  refine While.diverges (fun s => Fl.ninf ∈ s) ?_ ?_ hx
  · intro s hs
    exact List.any_eq_true.2 ⟨_, hs, by simp [isLow, Fl.lt]⟩
  · intro s hs
    exact List.mem_map.2 ⟨_, hs, by simp [isLow, Fl.lt, addFl]⟩

/-! ### the conversions never raise -/

open Real

theorem deg2hr_ok (lon : ℝ) : deg2hr lon = .ok (fixVal (lon / 15) 0 24 24) :=
  fixRange_ok (by norm_num) (by norm_num) (by norm_num)

theorem rad2hr_ok (lon : ℝ) : rad2hr lon = .ok (fixVal (lon * 12 / π) 0 24 24) :=
  fixRange_ok (by norm_num) (by norm_num) (by norm_num)

theorem hr2rad_ok (lt m : ℝ) : hr2rad lt m = .ok (fixVal (lt * π / 12) (m - 2 * π) m (2 * π)) :=
  fixRange_ok (by linarith [pi_pos]) (by simp) (by linarith [pi_pos])

theorem hr2deg_ok (lt mn mx : ℝ) :
    hr2deg lt mn mx = .ok (fixVal (lt * 15) (if mx - mn < 360 then mx - 360 else mn) mx 360) := by
  refine fixRange_ok ?_ rfl (by norm_num)
  split <;> linarith

theorem datetime2hr_nonneg (t : Tod) : 0 ≤ datetime2hr t := by
  unfold datetime2hr; positivity

theorem slt2glon_ok (slt : ℝ) (t : Tod) :
    slt2glon slt t = .ok (fixVal ((slt - datetime2hr t) * 15) (-180) 360 360) := by
  unfold slt2glon
  rw [hr2deg_ok, if_neg (by norm_num)]
  simp only [bind, Except.bind]
  rw [fixRange_ok (r := 360) (by norm_num) rfl (by norm_num), fixVal_id]
  · exact fixVal_ge _ _ _ _ (by norm_num)
  · exact fixVal_lt _ _ _ _ (by norm_num) (by norm_num)

theorem glon2slt_ok (glon : ℝ) (t : Tod) :
    glon2slt glon t = .ok (fixVal (fixVal (glon / 15) 0 24 24 + datetime2hr t) 0 24 24) := by
  unfold glon2slt
  rw [deg2hr_ok]
  simp only [bind, Except.bind]
  exact fixRange_ok (by norm_num) (by norm_num) (by norm_num)

end Time

end Ocb
