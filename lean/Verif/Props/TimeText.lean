import Mathlib.Tactic.Ring
import Mathlib.Tactic.Positivity
import Mathlib.Tactic.FieldSimp
import Verif.Model.TimeText
import Verif.Lemmas.Text

/-!
# Properties C07-C10, C84 and C85: dates and times from text

Vocabulary: `midnight y m d` is the time of a calendar date, in microseconds; `jan1 y` that of 1 January.
-/

set_option autoImplicit false

namespace Ocb.Text

open Ocb.Files (Name)

/-- Midnight at the beginning of a date, in microseconds. -/
def midnight (y m d : ℕ) : ℤ := ordinal y m d * 86400000000

/-- 1 January, in microseconds. -/
def jan1 (y : ℕ) : ℤ := midnight y 1 1

theorem stamp_eq (n h m s f : ℕ) : stamp n h m s f = n * 86400000000 + ((h * 60 + m) * 60 + s) * 1000000 + f := by
  unfold stamp; push_cast; ring

theorem jan1_eq (y : ℕ) : jan1 y = (dby y + 1 : ℤ) * 86400000000 := by
  unfold jan1 midnight ordinal dbm
  simp

theorem decInt_nat (n : ℕ) : decInt n = dec n := by
  unfold decInt
  rw [if_neg (by omega)]
  rfl

theorem stops_dash (t : Name) : Stops ('-' :: t) := stops_cons (by decide)

/-- Every way to read a number in a text takes all of it or stops before a digit. -/
theorem field_cases {lens : List ℕ} {lo hi : ℕ} {p rest : Name} (hp : p.all isDig = true) (hs : Stops rest) :
    ∀ x ∈ field lens lo hi (p ++ rest), x = (value p, rest) ∨ ∃ c t, x.2 = c :: t ∧ isDig c = true := by
  intro x hx
  unfold field at hx
  rw [List.mem_filterMap] at hx
  obtain ⟨k, hk, h⟩ := hx
  split at h
  · rename_i hc
    obtain ⟨h1, h2, h3, h4⟩ := hc
    obtain rfl := (Option.some.inj h).symm
    rcases Nat.lt_trichotomy k p.length with hlt | rfl | hgt
    · refine .inr ⟨p[k], p.drop (k + 1) ++ rest, ?_, ?_⟩
      · simp only
        rw [List.drop_append, show k - p.length = 0 by omega, List.drop_zero, List.drop_eq_getElem_cons hlt]
        rfl
      · rw [List.all_eq_true] at hp
        exact hp _ (List.getElem_mem hlt)
    · left
      rw [List.take_left, List.drop_left]
    · rw [take_long hs hgt h1] at h2
      simp at h2
  · simp at h

/-- A number out of range before a dash cannot be read. -/
theorem match_num_fail {c : Char} {lens : List ℕ} {lo hi : ℕ} (hc : ∀ s, alts c s = field lens lo hi s) (h0 : 0 ∉ lens)
    (n : ℤ) (hn : n < 0 ∨ ¬ ((dec n.natAbs).length ∈ lens ∧ lo ≤ n.natAbs ∧ n.natAbs ≤ hi)) (ts : List Tok) (rest : Name) :
    matchToks (.dir c :: .lit '-' :: ts) (decInt n ++ '-' :: rest) = none := by
  apply match_fail
  intro x hx
  rw [hc] at hx
  unfold decInt at hx
  split at hx
  · rw [List.cons_append, field_none h0 (stops_dash _)] at hx
    simp at hx
  · rename_i hneg
    obtain ⟨d, t, e, hd⟩ := field_fail (dec_spec n.natAbs).2.1 (by
      rw [(dec_spec n.natAbs).1]; rcases hn with h | h; exacts [absurd h hneg, h]) (stops_dash rest) x hx
    rw [e]
    exact match_dash_dig hd

/-- What follows a year and a dash decides. -/
theorem match_year_fail {ts : List Tok} {rest : Name} (y : ℤ) (h : matchToks ts rest = none) :
    matchToks (.dir 'Y' :: .lit '-' :: ts) (decInt y ++ '-' :: rest) = none := by
  by_cases hy : y < 0
  · exact match_num_fail (lens := [4]) (lo := 0) (hi := 9999) alts_Y (by simp) y (.inl hy) _ _
  · apply match_fail
    intro x hx
    unfold decInt at hx
    rw [if_neg hy, alts_Y] at hx
    rcases field_cases (dec_spec y.natAbs).2.1 (stops_dash rest) x hx with rfl | ⟨d, t, e, hd⟩
    · rw [match_lit, h]
    · rw [e]; exact match_dash_dig hd

/-! ### C07 -/

theorem soy_toks : toks "%Y-%j-%H-%M-%S".toList = some [.dir 'Y', .lit '-', .dir 'j', .lit '-', .dir 'H', .lit '-',
    .dir 'M', .lit '-', .dir 'S'] := by decide

theorem soy_match {y j h m s : ℕ} (hy : 1000 ≤ y) (hy' : y ≤ 9999) (hj : 1 ≤ j) (hj' : j ≤ 366) (hh : h ≤ 23) (hm : m ≤ 59)
    (hs : s ≤ 61) :
    matchToks [.dir 'Y', .lit '-', .dir 'j', .lit '-', .dir 'H', .lit '-', .dir 'M', .lit '-', .dir 'S']
      (decInt y ++ '-' :: (decInt j ++ '-' :: (decInt h ++ '-' :: (decInt m ++ '-' :: decInt s)))) =
    some ([('Y', y), ('j', j), ('H', h), ('M', m), ('S', s)], []) := by
  simp only [decInt_nat]
  have e1 : matchToks [.dir 'S'] (dec s) = some ([('S', s)], []) := by
    have := match_dir (reads_dec (c := 'S') (fun t => ⟨[], by rw [alts_S, List.append_nil]⟩) (Nat.zero_le s) hs (by omega))
      stops_nil (ts := []) (f := []) (r := []) rfl
    rwa [List.append_nil] at this
  have e2 := match_dir (reads_dec (c := 'M') (fun t => ⟨[], by rw [alts_M, List.append_nil]⟩) (Nat.zero_le m) hm (by omega))
    (stops_dash _) (ts := .lit '-' :: [.dir 'S']) (by rw [match_lit, e1])
  have e3 := match_dir (reads_dec (c := 'H') (fun t => ⟨[], by rw [alts_H, List.append_nil]⟩) (Nat.zero_le h) hh (by omega))
    (stops_dash _) (ts := .lit '-' :: [.dir 'M', .lit '-', .dir 'S']) (by rw [match_lit, e2])
  have hr := reads_j (p := dec j) (by rw [(dec_spec j).1]; exact hj) (by rw [(dec_spec j).1]; exact hj') (dec_spec j).2.1
    (dec_len_mem2 (by omega))
  rw [(dec_spec j).1] at hr
  have e4 := match_dir hr (stops_dash _) (ts := .lit '-' :: [.dir 'H', .lit '-', .dir 'M', .lit '-', .dir 'S'])
    (by rw [match_lit, e3])
  exact match_dir (reads_Y hy hy') (stops_dash _) (by rw [match_lit, e4])

theorem soy_build (y j h m s : ℕ) (hy : 1 ≤ y) : build [('Y', y), ('j', j), ('H', h), ('M', m), ('S', s)] =
    if dby y + j ≤ maxOrd then if s ≤ 59 then .ok (stamp (dby y + j) h m s 0) else .error .range else .error .range := by
  have l1 : List.lookup 'j' [('Y', y), ('j', j), ('H', h), ('M', m), ('S', s)] = some j := rfl
  have l2 : getField [('Y', y), ('j', j), ('H', h), ('M', m), ('S', s)] 'Y' 1900 = y := rfl
  have l3 : getField [('Y', y), ('j', j), ('H', h), ('M', m), ('S', s)] 'S' 0 = s := rfl
  have l4 : getField [('Y', y), ('j', j), ('H', h), ('M', m), ('S', s)] 'H' 0 = h := rfl
  have l5 : getField [('Y', y), ('j', j), ('H', h), ('M', m), ('S', s)] 'M' 0 = m := rfl
  have l6 : getField [('Y', y), ('j', j), ('H', h), ('M', m), ('S', s)] 'f' 0 = 0 := rfl
  unfold build dateOf
  simp only [l1, l2, l3, l4, l5, l6, hy, true_and]
  by_cases h1 : dby y + j ≤ maxOrd
  · simp only [h1, if_true]
  · simp only [h1, if_false]

theorem roundEven_nat (n : ℕ) : roundEven n = n := by
  unfold roundEven
  rw [Int.floor_natCast]
  simp

theorem roundEven_near (x : ℝ) : |(roundEven x : ℝ) - x| ≤ 1 / 2 := by
  unfold roundEven
  have h1 := Int.floor_le x
  have h2 := Int.lt_floor_add_one x
  rw [abs_le]
  split
  · constructor <;> linarith
  · split
    · push_cast; constructor <;> linarith
    · split
      · constructor <;> linarith
      · push_cast; constructor <;> linarith

theorem roundEven_le {x : ℝ} {n : ℕ} (h0 : 0 ≤ x) (hx : x < n + 1 / 2) : 0 ≤ roundEven x ∧ roundEven x ≤ n := by
  have hf : 0 ≤ ⌊x⌋ := Int.floor_nonneg.2 h0
  have h1 := Int.floor_le x
  have hle : ⌊x⌋ ≤ n := by
    have : ((⌊x⌋ : ℤ) : ℝ) < ((n + 1 : ℤ) : ℝ) := by push_cast; linarith
    have := Int.cast_lt.1 this
    omega
  have key : ⌊x⌋ = n → x - ⌊x⌋ < 1 / 2 := by
    intro h; rw [h]; push_cast; linarith
  unfold roundEven
  split
  · exact ⟨hf, hle⟩
  · rename_i hh
    have hne : ⌊x⌋ ≠ n := fun h => hh (key h)
    split
    · omega
    · split <;> omega

theorem roundEven_60 {x : ℝ} (h : 119 / 2 ≤ x) (hx : x < 60) : roundEven x = 60 := by
  have hf : ⌊x⌋ = 59 := by
    rw [Int.floor_eq_iff]; push_cast; constructor <;> linarith
  unfold roundEven
  rw [hf]
  push_cast
  rw [if_neg (by linarith)]
  split
  · norm_num
  · norm_num

theorem floor_div_bounds (x c : ℝ) (hc : 0 < c) : (⌊x / c⌋ : ℝ) * c ≤ x ∧ x < (⌊x / c⌋ + 1) * c := by
  have h1 := Int.floor_le (x / c)
  have h2 := Int.lt_floor_add_one (x / c)
  rw [le_div_iff₀ hc] at h1
  rw [div_lt_iff₀ hc] at h2
  exact ⟨h1, h2⟩

/-- The parts of the seconds of the year. -/
theorem soy_parts {soy : ℝ} (h0 : 0 ≤ soy) (h1 : soy < 366 * 86400) : ∃ d h m : ℕ, ∃ ss : ℝ, d ≤ 365 ∧ h ≤ 23 ∧ m ≤ 59 ∧
    0 ≤ ss ∧ ss < 60 ∧ soy = ((d * 24 + h) * 60 + m) * 60 + ss ∧ ⌊soy / 86400⌋ = d ∧ ⌊(soy - d * 86400) / 3600⌋ = h ∧
    ⌊(soy - d * 86400 - h * 3600) / 60⌋ = m ∧ ss = soy - d * 86400 - h * 3600 - m * 60 := by
  have hd0 : 0 ≤ ⌊soy / 86400⌋ := Int.floor_nonneg.2 (by positivity)
  obtain ⟨d, hd⟩ := Int.eq_ofNat_of_zero_le hd0
  have bd := floor_div_bounds soy 86400 (by norm_num)
  rw [hd] at bd
  push_cast at bd
  have hh0 : 0 ≤ ⌊(soy - d * 86400) / 3600⌋ := Int.floor_nonneg.2 (div_nonneg (by linarith) (by norm_num))
  obtain ⟨h, hh⟩ := Int.eq_ofNat_of_zero_le hh0
  have bh := floor_div_bounds (soy - d * 86400) 3600 (by norm_num)
  rw [hh] at bh
  push_cast at bh
  have hm0 : 0 ≤ ⌊(soy - d * 86400 - h * 3600) / 60⌋ := Int.floor_nonneg.2 (div_nonneg (by linarith) (by norm_num))
  obtain ⟨m, hm⟩ := Int.eq_ofNat_of_zero_le hm0
  have bm := floor_div_bounds (soy - d * 86400 - h * 3600) 60 (by norm_num)
  rw [hm] at bm
  push_cast at bm
  have lt : ∀ (a b : ℕ), (a : ℝ) < b → a < b := fun a b hab => by exact_mod_cast hab
  refine ⟨d, h, m, _, ?_, ?_, ?_, ?_, ?_, ?_, hd, hh, hm, rfl⟩
  · exact Nat.lt_succ_iff.1 (lt d 366 (by push_cast; nlinarith))
  · exact Nat.lt_succ_iff.1 (lt h 24 (by push_cast; nlinarith))
  · exact Nat.lt_succ_iff.1 (lt m 60 (by push_cast; nlinarith))
  · linarith
  · linarith
  · ring

theorem soy_nodup : (dirs [.dir 'Y', .lit '-', .dir 'j', .lit '-', .dir 'H', .lit '-', .dir 'M', .lit '-', .dir 'S']).Nodup := by
  decide

theorem yearSoy_in {y : ℕ} (hy : 1000 ≤ y) (hy' : y ≤ 9999) {soy : ℝ} (h0 : 0 ≤ soy) (h1 : soy < 366 * 86400) :
    ∃ d h m s : ℕ, ∃ ss : ℝ, d ≤ 365 ∧ 0 ≤ ss ∧ ss < 60 ∧ soy = ((d * 24 + h) * 60 + m) * 60 + ss ∧ (s : ℤ) = roundEven ss ∧
      yearSoy y soy = orValueError (if dby y + (d + 1) ≤ maxOrd then
        if s ≤ 59 then .ok (stamp (dby y + (d + 1)) h m s 0) else .error .range else .error .range) := by
  obtain ⟨d, h, m, ss, hd, hh, hm, hs0, hs1, e, f1, f2, f3, f4⟩ := soy_parts h0 h1
  obtain ⟨r0, r1⟩ := roundEven_le (n := 60) hs0 (by push_cast; linarith)
  obtain ⟨s, hs⟩ := Int.eq_ofNat_of_zero_le r0
  refine ⟨d, h, m, s, ss, hd, hs0, hs1, e, hs.symm, ?_⟩
  unfold yearSoy
  simp only [f1, Int.cast_natCast, f2, f3, ← f4, hs]
  unfold strptime
  rw [soy_toks]
  simp only
  rw [if_pos soy_nodup]
  have key := soy_match hy hy' (j := d + 1) (by omega) (by omega) hh hm (s := s) (by omega)
  push_cast at key
  have cs : Int.ofNat s = (s : ℤ) := rfl
  rw [show ((d : ℤ) + 1) = ((d + 1 : ℕ) : ℤ) by push_cast; rfl] at *
  rw [key]
  simp only
  rw [soy_build _ _ _ _ _ (by omega)]

theorem dby_limit {y d : ℕ} (hy : 1000 ≤ y) (hy' : y ≤ 9999) (hd : d ≤ 365) (hl : y < 9999 ∨ d < 365) :
    dby y + (d + 1) ≤ maxOrd := by
  have h9 : dby 9999 = 3651694 := by decide
  unfold maxOrd
  rcases Nat.lt_or_ge y 9999 with h | h
  · have h1 := dby_succ (y := y) (by omega)
    have h2 := dby_mono (a := y + 1) (b := 9999) (by omega) (by omega)
    rcases months_sum y with e | e <;> omega
  · obtain rfl : y = 9999 := by omega
    omega

/-- C07: for every year of four digits and every whole number of seconds up to 366 days (in 9999 up to 365), the result is
exactly 1 January plus that many seconds. -/
theorem C07_whole {y : ℕ} (hy : 1000 ≤ y) (hy' : y ≤ 9999) (n : ℕ) (hn : n < 366 * 86400) (hl : y < 9999 ∨ n < 365 * 86400) :
    yearSoy y n = .ok (jan1 y + n * 1000000) := by
  have hn' : (n : ℝ) < 366 * 86400 := by exact_mod_cast hn
  obtain ⟨d, h, m, s, ss, hd, hs0, hs1, e, hs, key⟩ := yearSoy_in hy hy' (Nat.cast_nonneg n) hn'
  obtain ⟨k, hk⟩ : ∃ k : ℕ, ss = k := by
    have : ss = ((n - ((d * 24 + h) * 60 + m) * 60 : ℤ) : ℝ) := by push_cast; linarith
    have h0 : (0 : ℤ) ≤ n - ((d * 24 + h) * 60 + m) * 60 := by
      rw [this] at hs0; exact_mod_cast hs0
    obtain ⟨k, hk⟩ := Int.eq_ofNat_of_zero_le h0
    exact ⟨k, by rw [this, hk]; rfl⟩
  subst hk
  rw [roundEven_nat] at hs
  obtain rfl : s = k := by exact_mod_cast hs
  have hs60 : s < 60 := by exact_mod_cast hs1
  have en : n = ((d * 24 + h) * 60 + m) * 60 + s := by exact_mod_cast e
  rw [key, if_pos (dby_limit hy hy' hd (by omega)), if_pos (by omega)]
  have et : stamp (dby y + (d + 1)) h m s 0 = jan1 y + n * 1000000 := by
    rw [stamp_eq, jan1_eq, en]
    push_cast
    ring
  rw [et]
  rfl

/-- C07 for fractional seconds, as far as it holds: below 59.5 seconds of the minute the result is the instant rounded to
the nearest second.  Missing: the last half second of every minute. -/
theorem C07_fraction_partial {y : ℕ} (hy : 1000 ≤ y) (hy' : y ≤ 9999) {soy : ℝ} (h0 : 0 ≤ soy) (h1 : soy < 366 * 86400)
    (hl : y < 9999 ∨ soy < 365 * 86400) (hf : ∀ k : ℤ, ¬ (60 * k + 119 / 2 ≤ soy ∧ soy < 60 * (k + 1))) :
    ∃ t, yearSoy y soy = .ok t ∧ |(t : ℝ) - (jan1 y + soy * 1000000)| ≤ 500000 := by
  obtain ⟨d, h, m, s, ss, hd, hs0, hs1, e, hs, key⟩ := yearSoy_in hy hy' h0 h1
  have hss : ss < 119 / 2 := by
    by_contra hc
    push Not at hc
    apply hf ((d * 24 + h) * 60 + m)
    push_cast
    constructor <;> linarith
  have hs59 := (roundEven_le (n := 59) hs0 (by push_cast; linarith)).2
  have hd' : y < 9999 ∨ d < 365 := by
    rcases hl with hl | hl
    · exact .inl hl
    · right
      by_contra hc
      push Not at hc
      have : (365 : ℝ) ≤ d := by exact_mod_cast hc
      have g1 : (0 : ℝ) ≤ h := Nat.cast_nonneg h
      have g2 : (0 : ℝ) ≤ m := Nat.cast_nonneg m
      nlinarith
  refine ⟨_, by rw [key, if_pos (dby_limit hy hy' hd hd'), if_pos (by omega)]; rfl, ?_⟩
  have hr := roundEven_near ss
  rw [← hs] at hr
  rw [stamp_eq, jan1_eq, e]
  push_cast at hr ⊢
  rw [abs_le] at hr ⊢
  constructor <;> linarith

/-- C07 is false for fractional seconds: in the last half second of every minute the call fails. -/
theorem C07_fraction_refuted {y : ℕ} (hy : 1000 ≤ y) (hy' : y ≤ 9999) {soy : ℝ} (h0 : 0 ≤ soy) (h1 : soy < 366 * 86400)
    (k : ℤ) (hk : 60 * k + 119 / 2 ≤ soy ∧ soy < 60 * (k + 1)) : yearSoy y soy = .error .valueError := by
  obtain ⟨d, h, m, s, ss, hd, hs0, hs1, e, hs, key⟩ := yearSoy_in hy hy' h0 h1
  have hss : 119 / 2 ≤ ss := by
    have hq : k = (d * 24 + h) * 60 + m := by
      have a1 : (60 * k : ℝ) < 60 * (((d * 24 + h) * 60 + m : ℤ) + 1) := by push_cast; linarith
      have a2 : (60 * ((d * 24 + h) * 60 + m : ℤ) : ℝ) < 60 * (k + 1) := by push_cast; linarith
      have a1' : 60 * k < 60 * (((d * 24 + h) * 60 + m : ℤ) + 1) := by exact_mod_cast a1
      have a2' : 60 * ((d * 24 + h) * 60 + m : ℤ) < 60 * (k + 1) := by exact_mod_cast a2
      omega
    rw [hq] at hk
    push_cast at hk
    linarith [hk.1]
  rw [roundEven_60 hss hs1] at hs
  rw [key]
  split
  · rw [if_neg (by omega)]; rfl
  · rfl

/-- C07: every other year and every other number of seconds of the year raises ValueError. -/
theorem C07_outside (y : ℤ) (soy : ℝ) (h : y < 1000 ∨ 9999 < y ∨ soy < 0 ∨ 366 * 86400 ≤ soy) :
    yearSoy y soy = .error .valueError := by
  unfold yearSoy strptime
  rw [soy_toks]
  simp only
  rw [if_pos soy_nodup]
  have key : ∀ rest, matchToks [.dir 'Y', .lit '-', .dir 'j', .lit '-', .dir 'H', .lit '-', .dir 'M', .lit '-', .dir 'S']
      (decInt y ++ '-' :: (decInt (⌊soy / 86400⌋ + 1) ++ '-' :: rest)) = none := by
    intro rest
    have hj : soy < 0 ∨ 366 * 86400 ≤ soy → matchToks [.dir 'j', .lit '-', .dir 'H', .lit '-', .dir 'M', .lit '-', .dir 'S']
        (decInt (⌊soy / 86400⌋ + 1) ++ '-' :: rest) = none := by
      intro hs
      apply match_num_fail (lens := [3, 2, 1]) (lo := 1) (hi := 366) alts_j (by simp)
      rcases hs with hs | hs
      · have : ⌊soy / 86400⌋ < 0 := by
          rw [Int.floor_lt]; push_cast; exact div_neg_of_neg_of_pos hs (by norm_num)
        rcases Int.lt_or_le (⌊soy / 86400⌋ + 1) 0 with hlt | hge
        · exact .inl hlt
        · right
          obtain h0 : ⌊soy / 86400⌋ + 1 = 0 := by omega
          rw [h0]
          simp
      · have : 366 ≤ ⌊soy / 86400⌋ := by
          rw [Int.le_floor]; push_cast; rw [le_div_iff₀ (by norm_num)]; exact hs
        right
        rintro ⟨-, -, h3⟩
        omega
    have hy4 : y < 1000 ∨ 9999 < y → matchToks [.dir 'Y', .lit '-', .dir 'j', .lit '-', .dir 'H', .lit '-', .dir 'M', .lit '-',
        .dir 'S'] (decInt y ++ '-' :: (decInt (⌊soy / 86400⌋ + 1) ++ '-' :: rest)) = none := by
      intro hy
      apply match_num_fail (lens := [4]) (lo := 0) (hi := 9999) alts_Y (by simp)
      by_cases hneg : y < 0
      · exact .inl hneg
      · right
        rintro ⟨hl, -, -⟩
        rw [List.mem_singleton] at hl
        rcases hy with hy | hy
        · have := (dec_length y.natAbs 3 (by norm_num)).2 (by omega)
          omega
        · have : ¬ (dec y.natAbs).length ≤ 4 := by rw [dec_length _ _ (by norm_num)]; omega
          omega
    rcases h with h | h | h | h
    · exact hy4 (.inl h)
    · exact hy4 (.inr h)
    · exact match_year_fail y (hj (.inl h))
    · exact match_year_fail y (hj (.inr h))
  rw [key]
  rfl

/-- 31 536 059.5 s is in the last half second of the first minute of day 366. -/
example : (1000 ≤ 2001 ∧ 2001 ≤ 9999) ∧ 31536059 < 366 * 86400 ∧
    (60 * (525600 : ℤ) + 119 / 2 : ℝ) ≤ 31536059.5 ∧ (31536059.5 : ℝ) < 60 * ((525600 : ℤ) + 1) := by
  norm_num

/-- Half past a second in the middle of a minute is not in a refused interval. -/
example : ∀ k : ℤ, ¬ ((60 * k + 119 / 2 : ℝ) ≤ 30.5 ∧ (30.5 : ℝ) < 60 * (k + 1)) := by
  rintro k ⟨h1, h2⟩
  have a1 : (k : ℝ) < 0 := by linarith
  have a2 : (-1 : ℝ) < k := by linarith
  have b1 : k < 0 := by exact_mod_cast a1
  have b2 : -1 < k := by exact_mod_cast a2
  omega

end Ocb.Text
