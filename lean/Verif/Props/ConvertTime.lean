import Verif.Props.TimeText

/-!
# Properties C08-C10, C84 and C85: `yyddd_to_date`, `convert_time`, `get_datetime_fmt_len`
-/

set_option autoImplicit false

namespace Ocb.Text

open Ocb.Files (Name)

/-! ### C08 -/

/-- White space before a digit is one way to match one space. -/
theorem match_ws {ts : List Tok} {c : Char} {t : Name} (hc : isWs c = false) :
    matchToks (.ws :: ts) (' ' :: c :: t) = matchToks ts (c :: t) := by
  rw [matchToks]
  have h : (List.takeWhile isWs (' ' :: c :: t)).length = 1 := by
    rw [List.takeWhile_cons, if_pos (by decide), List.takeWhile_cons, hc]
    rfl
  rw [h]
  simp only [List.range_one, List.reverse_singleton, firstSome, Nat.zero_add, List.drop_succ_cons, List.drop_zero]
  cases matchToks ts (c :: t) <;> rfl

theorem dig_not_ws {c : Char} (h : isDig c = true) : isWs c = false := by
  unfold isWs
  simp only [Bool.or_eq_false_iff, beq_eq_false_iff_ne, ne_eq]
  refine ⟨⟨⟨?_, ?_⟩, ?_⟩, ?_⟩ <;> rintro rfl <;> revert h <;> decide

theorem yj_toks : toks "%Y %j".toList = some [.dir 'Y', .ws, .dir 'j'] := by decide

theorem yj_build (y j : ℕ) (hy : 1 ≤ y) : build [('Y', y), ('j', j)] =
    if dby y + j ≤ maxOrd then .ok (stamp (dby y + j) 0 0 0 0) else .error .range := by
  have l1 : List.lookup 'j' [('Y', y), ('j', j)] = some j := rfl
  have l2 : getField [('Y', y), ('j', j)] 'Y' 1900 = y := rfl
  have l3 : getField [('Y', y), ('j', j)] 'S' 0 = 0 := rfl
  have l4 : getField [('Y', y), ('j', j)] 'H' 0 = 0 := rfl
  have l5 : getField [('Y', y), ('j', j)] 'M' 0 = 0 := rfl
  have l6 : getField [('Y', y), ('j', j)] 'f' 0 = 0 := rfl
  unfold build dateOf
  simp only [l1, l2, l3, l4, l5, l6, hy, true_and]
  by_cases h1 : dby y + j ≤ maxOrd
  · simp [h1]
  · simp [h1]

/-- A text of a year offset, three digits of the day of the year, and possibly a decimal part. -/
def IsYyddd (s off ddd : Name) : Prop :=
  off ≠ [] ∧ off.all isDig = true ∧ ddd.length = 3 ∧ ddd.all isDig = true ∧ (s = off ++ ddd ∨ ∃ tail, s = off ++ ddd ++ '.' :: tail)

theorem readInt_digits {p : Name} (h : p ≠ []) (hp : p.all isDig = true) : readInt p = .ok (value p) := by
  cases p with
  | nil => exact absurd rfl h
  | cons c t =>
    have hc : isDig c = true := by rw [List.all_cons, Bool.and_eq_true] at hp; exact hp.1
    unfold readInt
    split
    · rename_i heq; rw [List.cons.injEq] at heq; rw [heq.1] at hc; exact absurd hc (by decide)
    · rename_i heq; rw [List.cons.injEq] at heq; rw [heq.1] at hc; exact absurd hc (by decide)
    · rw [if_pos ⟨h, hp⟩]

theorem takeWhile_all {p : Char → Bool} {l : Name} (h : ∀ c ∈ l, p c = true) : l.takeWhile p = l := by
  have := List.takeWhile_append_of_pos (l₂ := []) h
  simpa using this

theorem yyddd_head {s off ddd : Name} (h : IsYyddd s off ddd) : s.takeWhile (· ≠ '.') = off ++ ddd := by
  obtain ⟨-, h2, -, h4, h5⟩ := h
  have hall : ∀ c ∈ off ++ ddd, decide (c ≠ '.') = true := by
    intro c hc
    rw [decide_eq_true_eq]
    rintro rfl
    rw [List.all_eq_true] at h2 h4
    rcases List.mem_append.1 hc with hc | hc
    · exact absurd (h2 _ hc) (by decide)
    · exact absurd (h4 _ hc) (by decide)
  rcases h5 with rfl | ⟨tail, rfl⟩
  · exact takeWhile_all hall
  · rw [List.takeWhile_append_of_pos hall, List.takeWhile_cons, if_neg (by decide), List.append_nil]

theorem yydddParse_eq {s off ddd : Name} (h : IsYyddd s off ddd) :
    yydddParse s = .ok (strptime (dec (value off + 1900) ++ ' ' :: ddd) "%Y %j".toList) := by
  unfold yydddParse
  simp only [yyddd_head h]
  obtain ⟨h1, h2, h3, h4, -⟩ := h
  have e1 : (off ++ ddd).take ((off ++ ddd).length - 3) = off := by
    rw [List.length_append, h3, Nat.add_sub_cancel, List.take_left]
  have e2 : (off ++ ddd).drop ((off ++ ddd).length - 3) = ddd := by
    rw [List.length_append, h3, Nat.add_sub_cancel, List.drop_left]
  rw [e1, e2, readInt_digits h1 h2]
  simp only [Except.map]
  rw [show ((value off : ℤ) + 1900) = ((value off + 1900 : ℕ) : ℤ) by push_cast; rfl, decInt_nat]

theorem stops_space (t : Name) : Stops (' ' :: t) := stops_cons (by decide)

theorem ddd_cons {ddd : Name} (h3 : ddd.length = 3) (h4 : ddd.all isDig = true) : ∃ a b c, ddd = [a, b, c] ∧
    isDig a = true ∧ isDig b = true ∧ isDig c = true := by
  match ddd, h3 with
  | [a, b, c], _ =>
    simp only [List.all_cons, List.all_nil, Bool.and_true, Bool.and_eq_true] at h4
    exact ⟨a, b, c, rfl, h4⟩

theorem yj_good {y : ℕ} {ddd : Name} (hy : 1000 ≤ y) (hy' : y ≤ 9999) (h3 : ddd.length = 3) (h4 : ddd.all isDig = true)
    (hj : 1 ≤ value ddd) (hj' : value ddd ≤ 366) (hm : dby y + value ddd ≤ maxOrd) :
    strptime (dec y ++ ' ' :: ddd) "%Y %j".toList = .ok (stamp (dby y + value ddd) 0 0 0 0) := by
  unfold strptime
  rw [yj_toks]
  simp only
  rw [if_pos (by decide)]
  have hr := reads_j hj hj' h4 (by rw [h3]; simp)
  have e1 := match_dir hr stops_nil (ts := []) (f := []) (r := []) rfl
  rw [List.append_nil] at e1
  have e2 : matchToks [.dir 'Y', .ws, .dir 'j'] (dec y ++ ' ' :: ddd) = some ([('Y', y), ('j', value ddd)], []) := by
    apply match_dir (reads_Y hy hy') (stops_space _)
    obtain ⟨a, b, c, rfl, ha, -, -⟩ := ddd_cons h3 h4
    rw [match_ws (dig_not_ws ha), e1]
  rw [e2]
  simp only
  rw [yj_build _ _ (by omega), if_pos hm]

theorem digitVal {c : Char} (h : isDig c = true) : c.toNat - 48 < 10 ∧ 48 ≤ c.toNat := by
  unfold isDig at h
  simp only [Bool.and_eq_true, decide_eq_true_eq, Char.le_def, UInt32.le_iff_toNat_le] at h
  have h1 : '9'.val.toNat = 57 := rfl
  have h2 : '0'.val.toNat = 48 := rfl
  have h3 : c.toNat = c.val.toNat := rfl
  omega

/-- A day of the year above 366 is read in part. -/
theorem yj_above {y : ℕ} {ddd : Name} (hy : 1000 ≤ y) (hy' : y ≤ 9999) (h3 : ddd.length = 3) (h4 : ddd.all isDig = true)
    (hj : 366 < value ddd) : ∃ rest, strptime (dec y ++ ' ' :: ddd) "%Y %j".toList = .error (.remains rest) := by
  obtain ⟨a, b, c, rfl, ha, hb, hc⟩ := ddd_cons h3 h4
  have va := digitVal ha
  have vb := digitVal hb
  have vc := digitVal hc
  have hv : value [a, b, c] = 10 * value [a, b] + (c.toNat - 48) := by simp [value]
  have hab : value [a, b] = 10 * (a.toNat - 48) + (b.toNat - 48) := by simp [value]
  have e1 : ∃ more, alts 'j' [a, b, c] = (value [a, b], [c]) :: more := by
    rw [alts_j]
    unfold field
    rw [List.filterMap_cons_none, List.filterMap_cons_some]
    · exact ⟨_, rfl⟩
    · rw [if_pos]
      · rfl
      · exact ⟨rfl, by simp [ha, hb], by simp only [List.take_succ_cons, List.take_zero]; omega, by
          simp only [List.take_succ_cons, List.take_zero]; omega⟩
    · rw [if_neg]
      rintro ⟨-, -, -, h⟩
      simp only [List.take_succ_cons, List.take_zero] at h
      omega
  obtain ⟨more, e1⟩ := e1
  have e2 : matchToks [.dir 'j'] [a, b, c] = some ([('j', value [a, b])], [c]) := by
    rw [matchToks, e1]
    exact firstSome_cons_some (by rw [matchToks]; rfl)
  have e3 : matchToks [.dir 'Y', .ws, .dir 'j'] (dec y ++ ' ' :: [a, b, c])
      = some ([('Y', y), ('j', value [a, b])], [c]) := by
    apply match_dir (reads_Y hy hy') (stops_space _)
    rw [match_ws (dig_not_ws ha), e2]
  unfold strptime
  rw [yj_toks]
  simp only
  rw [if_pos (by decide), e3]
  exact ⟨_, rfl⟩

/-- Day 000 cannot be read. -/
theorem yj_zero {y : ℕ} {ddd : Name} (hy : 1000 ≤ y) (hy' : y ≤ 9999) (h3 : ddd.length = 3) (h4 : ddd.all isDig = true)
    (hj : value ddd = 0) : strptime (dec y ++ ' ' :: ddd) "%Y %j".toList = .error .mismatch := by
  obtain ⟨a, b, c, rfl, ha, hb, hc⟩ := ddd_cons h3 h4
  have va := digitVal ha
  have vb := digitVal hb
  have vc := digitVal hc
  have hv : value [a, b, c] = 10 * value [a, b] + (c.toNat - 48) := by simp [value]
  have hab : value [a, b] = 10 * value [a] + (b.toNat - 48) := by simp [value]
  have e1 : alts 'j' [a, b, c] = [] := by
    rw [alts_j]
    unfold field
    rw [List.filterMap_eq_nil_iff]
    intro k hk
    rw [if_neg]
    rintro ⟨-, -, h, -⟩
    simp only [List.mem_cons, List.not_mem_nil, or_false] at hk
    rcases hk with rfl | rfl | rfl <;> simp only [List.take_succ_cons, List.take_zero] at h <;> omega
  have e2 : matchToks [.ws, .dir 'j'] (' ' :: [a, b, c]) = none := by
    rw [match_ws (dig_not_ws ha), matchToks, e1]
    rfl
  have e3 : matchToks [.dir 'Y', .ws, .dir 'j'] (dec y ++ ' ' :: [a, b, c]) = none := by
    apply match_fail
    intro x hx
    rw [alts_Y] at hx
    unfold field at hx
    rw [List.mem_filterMap] at hx
    obtain ⟨k, hk, h⟩ := hx
    rw [List.mem_singleton] at hk
    subst hk
    have hl := dec_length_eq (n := y) (k := 3) (by omega) (.inl (by omega))
    have e : List.drop 4 (dec y ++ ' ' :: [a, b, c]) = ' ' :: [a, b, c] := by
      rw [← show (dec y).length = 4 from hl, List.drop_left]
    split at h
    · obtain rfl := (Option.some.inj h).symm
      simp only [e, e2]
    · simp at h
  unfold strptime
  rw [yj_toks]
  simp only
  rw [if_pos (by decide), e3]

/-- C08: the date is 1 January of 1900 + offset plus day - 1 days, for every offset that gives a year of four digits and
every day from 001 to 366 (in 9999 to 365), whatever decimal part follows. -/
theorem C08_date {s off ddd : Name} (h : IsYyddd s off ddd) (hy : value off + 1900 ≤ 9999) (hj : 1 ≤ value ddd)
    (hj' : value ddd ≤ 366) (hl : value off + 1900 < 9999 ∨ value ddd < 366) :
    yydddDate s = .ok (jan1 (value off + 1900) + (value ddd - 1) * 86400000000) := by
  have hm : dby (value off + 1900) + value ddd ≤ maxOrd := by
    have := dby_limit (y := value off + 1900) (d := value ddd - 1) (by omega) hy (by omega) (by omega)
    omega
  unfold yydddDate
  rw [yydddParse_eq h, yj_good (by omega) hy h.2.2.1 h.2.2.2.1 hj hj' hm]
  have e : stamp (dby (value off + 1900) + value ddd) 0 0 0 0
      = jan1 (value off + 1900) + (value ddd - 1) * 86400000000 := by
    rw [stamp_eq, jan1_eq]; push_cast; ring
  rw [e]
  rfl

/-- C08: day 000 and days above 366 raise ValueError. -/
theorem C08_bad_day {s off ddd : Name} (h : IsYyddd s off ddd) (hy : value off + 1900 ≤ 9999)
    (hj : value ddd = 0 ∨ 366 < value ddd) : yydddDate s = .error .valueError := by
  unfold yydddDate
  rw [yydddParse_eq h]
  rcases hj with hj | hj
  · rw [yj_zero (by omega) hy h.2.2.1 h.2.2.2.1 hj]; rfl
  · obtain ⟨rest, e⟩ := yj_above (y := value off + 1900) (by omega) hy h.2.2.1 h.2.2.2.1 hj
    rw [e]; rfl

example : IsYyddd "100126.5".toList "100".toList "126".toList ∧ value "100".toList + 1900 = 2000 ∧ value "126".toList = 126 :=
  ⟨⟨by decide, by decide, by decide, by decide, .inr ⟨"5".toList, by decide⟩⟩, by decide, by decide⟩

/-! ### C09 -/

theorem ymd_toks : toks "%Y-%m-%d".toList = some [.dir 'Y', .lit '-', .dir 'm', .lit '-', .dir 'd'] := by decide

theorem ymd_match {y m d : ℕ} (hy' : y ≤ 9999) (hm : 1 ≤ m) (hm' : m ≤ 12) (hd : 1 ≤ d) (hd' : d ≤ 31)
    {ts : List Tok} {f : Fields} {rest r : Name} (hs : Stops rest) (h : matchToks ts rest = some (f, r)) :
    matchToks (.dir 'Y' :: .lit '-' :: .dir 'm' :: .lit '-' :: .dir 'd' :: ts)
      (pad4 y ++ '-' :: (pad2 m ++ '-' :: pad2 d) ++ rest) = some (('Y', y) :: ('m', m) :: ('d', d) :: f, r) := by
  rw [List.append_assoc, List.cons_append, List.append_assoc, List.cons_append]
  have e1 := match_dir (reads_pad (c := 'd') (fun t => ⟨_, alts_d t⟩) hd hd' (by omega)) hs h
  have e2 := match_dir (reads_pad (c := 'm') (fun t => ⟨[], by rw [alts_m, List.append_nil]⟩) hm hm' (by omega))
    (stops_dash (pad2 d ++ rest)) (ts := .lit '-' :: .dir 'd' :: ts) (by rw [match_lit, e1])
  exact match_dir (reads_Y4 hy') (stops_dash _) (by rw [match_lit, e2])

theorem day_le {y m d : ℕ} (hm : 1 ≤ m) (hm' : m ≤ 12) (h : d ≤ (months y).getD (m - 1) 0) : d ≤ 31 := by
  unfold months at h
  interval_cases m <;> simp at h <;> (try omega)
  split at h <;> omega

theorem ymd_build (y m d : ℕ) (h : Valid y m d) : build [('Y', y), ('m', m), ('d', d)] = .ok (midnight y m d) := by
  have l1 : List.lookup 'j' [('Y', y), ('m', m), ('d', d)] = none := rfl
  have l2 : getField [('Y', y), ('m', m), ('d', d)] 'Y' 1900 = y := rfl
  have l3 : getField [('Y', y), ('m', m), ('d', d)] 'm' 1 = m := rfl
  have l4 : getField [('Y', y), ('m', m), ('d', d)] 'd' 1 = d := rfl
  have l5 : getField [('Y', y), ('m', m), ('d', d)] 'S' 0 = 0 := rfl
  have l6 : getField [('Y', y), ('m', m), ('d', d)] 'H' 0 = 0 := rfl
  have l7 : getField [('Y', y), ('m', m), ('d', d)] 'M' 0 = 0 := rfl
  have l8 : getField [('Y', y), ('m', m), ('d', d)] 'f' 0 = 0 := rfl
  unfold build dateOf
  simp only [l1, l2, l3, l4, l5, l6, l7, l8, h, if_true]
  rw [if_pos (by omega), stamp_eq]
  unfold midnight
  simp

/-- A date written as `YYYY-MM-DD`, years before 1000 with leading zeros. -/
def dateText (y m d : ℕ) : Name := pad4 y ++ '-' :: (pad2 m ++ '-' :: pad2 d)

theorem strptime_date {y m d : ℕ} (h : Valid y m d) :
    strptime (dateText y m d) "%Y-%m-%d".toList = .ok (midnight y m d) := by
  obtain ⟨h1, h2, h3, h4, h5, h6⟩ := h
  have e := ymd_match h2 h3 h4 h5 (day_le h3 h4 h6) stops_nil (ts := []) (f := []) (r := []) rfl
  rw [List.append_nil] at e
  unfold strptime dateText
  rw [ymd_toks]
  simp only
  rw [if_pos (by decide), e]
  exact ymd_build y m d ⟨h1, h2, h3, h4, h5, h6⟩

/-- The result of adding seconds of the day: not before the instant and less than a microsecond after it. -/
def Within (t : ℤ) (sod : ℝ) (r : ℤ) : Prop := (t : ℝ) + sod * 1000000 ≤ r ∧ (r : ℝ) < t + sod * 1000000 + 1

theorem addSod_within {t : ℤ} {sod : ℝ} (h0 : 0 ≤ sod) (hlo : stamp 1 0 0 0 0 ≤ t) (hhi : (t : ℝ) + sod * 1000000 ≤ maxStamp) :
    ∃ r, addSod t sod = .ok r ∧ Within t sod r := by
  have hf0 : 0 ≤ ⌊sod⌋ := Int.floor_nonneg.2 h0
  have hf1 := Int.floor_le sod
  have hf2 := Int.lt_floor_add_one sod
  have hle : t + ⌊sod⌋ * 1000000 ≤ maxStamp := by
    have : ((t + ⌊sod⌋ * 1000000 : ℤ) : ℝ) ≤ maxStamp := by push_cast; linarith
    exact_mod_cast this
  unfold addSod
  simp only [if_pos h0]
  rw [if_pos ⟨by omega, hle⟩]
  split
  · rename_i hm
    have hc := Int.le_ceil ((sod - ⌊sod⌋) * 1000000)
    have hc' := Int.ceil_lt_add_one ((sod - ⌊sod⌋) * 1000000)
    have hlt : t + ⌊sod⌋ * 1000000 + ⌈(sod - ⌊sod⌋) * 1000000⌉ ≤ maxStamp := by
      have : ⌈(sod - ⌊sod⌋) * 1000000⌉ ≤ maxStamp - (t + ⌊sod⌋ * 1000000) := by
        rw [Int.ceil_le]; push_cast; linarith
      omega
    rw [if_pos hlt]
    refine ⟨_, rfl, ?_, ?_⟩ <;> push_cast <;> linarith
  · rename_i hm
    push Not at hm
    refine ⟨_, rfl, ?_, ?_⟩ <;> push_cast <;> linarith

theorem ordinal_pos {y m d : ℕ} (h : Valid y m d) : 1 ≤ ordinal y m d := by
  unfold ordinal
  have := h.2.2.2.2.1
  omega

theorem stamp_le_midnight {y m d : ℕ} (h : Valid y m d) : stamp 1 0 0 0 0 ≤ midnight y m d := by
  have := ordinal_pos h
  rw [stamp_eq]
  unfold midnight
  push_cast
  omega

theorem bare_default : bareFmt "%Y-%m-%d %H:%M:%S".toList = "%Y-%m-%d".toList := by decide
theorem bare_date : bareFmt "%Y-%m-%d".toList = "%Y-%m-%d".toList := by decide
theorem bare_sod : bareFmt "%Y-%m-%d SOD".toList = "%Y-%m-%d".toList := by decide
theorem bare_yyddd : bareFmt (dateFmt "YYDDD SOD".toList) = "%Y-%m-%d".toList := by decide
theorem bare_dateFmt_default : bareFmt (dateFmt "%Y-%m-%d %H:%M:%S".toList) = "%Y-%m-%d".toList := by decide

/-- C09, any format: when the date is read as `t`, non-negative seconds of the day are added without losing time. -/
theorem C09_any_format_partial {date fmt : Name} {t : ℤ} (ht : strptime date (bareFmt fmt) = .ok t) {sod : ℝ} (h0 : 0 ≤ sod)
    (hlo : stamp 1 0 0 0 0 ≤ t) (hhi : (t : ℝ) + sod * 1000000 ≤ maxStamp) (year : Option ℤ) :
    ∃ r, convertTime year none none (some sod) (some date) none fmt = .ok r ∧ Within t sod r := by
  obtain ⟨r, h1, h2⟩ := addSod_within h0 hlo hhi
  refine ⟨r, ?_, h2⟩
  have : convertTime year none none (some sod) (some date) none fmt = parseDay date (bareFmt fmt) (some sod) := by
    cases year <;> rfl
  rw [this]
  unfold parseDay
  rw [ht]
  exact h1

/-- C09 for a date written `YYYY-MM-DD` and the formats with or without a time of day, up to the
end of the calendar. -/
theorem C09_date_partial {y m d : ℕ} (h : Valid y m d) {sod : ℝ} (h0 : 0 ≤ sod)
    (hhi : (midnight y m d : ℝ) + sod * 1000000 ≤ maxStamp) (fmt : Name)
    (hf : fmt = "%Y-%m-%d %H:%M:%S".toList ∨ fmt = "%Y-%m-%d SOD".toList ∨ fmt = "%Y-%m-%d".toList) :
    ∃ r, convertTime none none none (some sod) (some (dateText y m d)) none fmt = .ok r ∧ Within (midnight y m d) sod r := by
  refine C09_any_format_partial ?_ h0 (stamp_le_midnight h) hhi none
  have : bareFmt fmt = "%Y-%m-%d".toList := by
    rcases hf with rfl | rfl | rfl
    · exact bare_default
    · exact bare_sod
    · exact bare_date
  rw [this, strptime_date h]

theorem writeDate_read {n : ℕ} (h1 : dby 1000 < n) (h2 : n ≤ maxOrd) :
    strptime (writeDate n) "%Y-%m-%d".toList = .ok (n * 86400000000) := by
  have hn : 1 ≤ n := by omega
  obtain ⟨y, m, d, e, g1, g2, g3, g4, g5, g6, g7, g8⟩ := civil_spec hn
  have hy' : y ≤ 9999 := by
    by_contra hc
    have := dby_mono (a := 10000) (b := y) (by omega) (by omega)
    have h9 : dby 10000 = 3652059 := by decide
    unfold maxOrd at h2
    omega
  have hy : 1000 ≤ y := by
    by_contra hc
    have := dby_mono (a := y + 1) (b := 1000) (by omega) (by omega)
    omega
  have := strptime_date ⟨g1, hy', g2, g3, g4, g5⟩
  unfold writeDate
  rw [e]
  unfold dateText midnight at this
  rw [g6, pad4_dec hy hy'] at this
  exact this

theorem join_day (date fmt : Name) (sod : ℝ) :
    joinParse (some date) none fmt (some sod) = parseDay date (bareFmt fmt) (some sod) := rfl

theorem day_of_stamp (n : ℕ) : (stamp n 0 0 0 0 / 86400000000).toNat = n := by
  rw [show stamp n 0 0 0 0 = (n : ℤ) * 86400000000 by unfold stamp; push_cast; ring,
    Int.mul_ediv_cancel _ (by norm_num), Int.toNat_natCast]

/-- C09 for a date given as years since 1900 and day of the year, in the format of the VORT files and in the default
format. -/
theorem C09_yyddd_partial {s off ddd : Name} (h : IsYyddd s off ddd) (hy : value off + 1900 ≤ 9999) (hj : 1 ≤ value ddd)
    (hj' : value ddd ≤ 366) (hl : value off + 1900 < 9999 ∨ value ddd < 366) {sod : ℝ} (h0 : 0 ≤ sod)
    (hhi : ((jan1 (value off + 1900) + (value ddd - 1) * 86400000000 : ℤ) : ℝ) + sod * 1000000 ≤ maxStamp) (fmt : Name)
    (hf : fmt = "YYDDD SOD".toList ∨ fmt = "%Y-%m-%d %H:%M:%S".toList) :
    ∃ r, convertTime none none (some s) (some sod) none none fmt = .ok r ∧
      Within (jan1 (value off + 1900) + (value ddd - 1) * 86400000000) sod r := by
  have hm : dby (value off + 1900) + value ddd ≤ maxOrd := by
    have := dby_limit (y := value off + 1900) (d := value ddd - 1) (by omega) hy (by omega) (by omega)
    omega
  have he : jan1 (value off + 1900) + (value ddd - 1) * 86400000000
      = ((dby (value off + 1900) + value ddd : ℕ) : ℤ) * 86400000000 := by
    rw [jan1_eq]; push_cast; ring
  rw [he] at hhi ⊢
  have hb : bareFmt (dateFmt fmt) = "%Y-%m-%d".toList := by
    rcases hf with rfl | rfl
    · exact bare_yyddd
    · exact bare_dateFmt_default
  have hlow : dby 1000 < dby (value off + 1900) + value ddd := by
    have := dby_mono (a := 1000) (b := value off + 1900) (by omega) (by omega)
    omega
  obtain ⟨r, h1, h2⟩ := addSod_within h0 (by rw [stamp_eq]; push_cast; omega) hhi
  refine ⟨r, ?_, h2⟩
  have e1 : convertTime none none (some s) (some sod) none none fmt = (match yydddParse s with
      | .error e => .error e
      | .ok (.error (.remains _)) => .error .unboundLocal
      | .ok (.error _) => .error .valueError
      | .ok (.ok t) => joinParse (some (writeDate (t / 86400000000).toNat)) none (dateFmt fmt) (some sod)) := rfl
  rw [e1, yydddParse_eq h, yj_good (by omega) hy h.2.2.1 h.2.2.2.1 hj hj' hm]
  have e2 := day_of_stamp (dby (value off + 1900) + value ddd)
  show joinParse _ _ _ _ = _
  rw [join_day]
  unfold parseDay
  rw [e2, hb, writeDate_read hlow hm]
  exact h1

/-- C09 is false when the date has trailing characters: they are cut off, and with them the seconds of the day. -/
theorem C09_trailing_refuted {y m d : ℕ} (h : Valid y m d) (sod : ℝ) (tail : Name) (ht : tail ≠ [])
    (hs : Stops tail) (hw : ' ' ∉ tail) :
    convertTime none none none (some sod) (some (dateText y m d ++ tail)) none "%Y-%m-%d %H:%M:%S".toList
      = .ok (midnight y m d) := by
  have e1 : convertTime none none none (some sod) (some (dateText y m d ++ tail)) none "%Y-%m-%d %H:%M:%S".toList
      = parseDay (dateText y m d ++ tail) "%Y-%m-%d".toList (some sod) := by
    rw [← bare_default]; rfl
  have e2 : strptime (dateText y m d ++ tail) "%Y-%m-%d".toList = .error (.remains tail) := by
    obtain ⟨h1, h2, h3, h4, h5, h6⟩ := h
    have e := ymd_match h2 h3 h4 h5 (day_le h3 h4 h6) hs (ts := []) (f := []) (r := tail) rfl
    unfold strptime dateText
    rw [ymd_toks]
    simp only
    rw [if_pos (by decide), e]
    cases tail with
    | nil => exact absurd rfl ht
    | cons c t => rfl
  have e3 : cutEnd (dateText y m d ++ tail) (lastPart tail) = dateText y m d := by
    have hl : lastPart tail = tail.length := by
      unfold lastPart
      rw [takeWhile_all, List.length_reverse]
      intro c hc
      rw [decide_eq_true_eq]
      rintro rfl
      exact hw (List.mem_reverse.1 hc)
    unfold cutEnd
    rw [hl, if_neg (by rw [List.length_eq_zero_iff]; exact ht), List.length_append, Nat.add_sub_cancel, List.take_left]
  rw [e1]
  unfold parseDay
  rw [e2]
  simp only
  rw [e3, strptime_date h]
  rfl

example : Valid 2001 2 28 ∧ ¬ Valid 2001 2 29 ∧ Valid 2000 2 29 ∧ Stops "Z".toList ∧ ' ' ∉ "Z".toList :=
  ⟨by decide, by decide, by decide, stops_cons (by decide), by decide⟩

/-! ### C84 -/

theorem default_toks : toks "%Y-%m-%d %H:%M:%S".toList = some [.dir 'Y', .lit '-', .dir 'm', .lit '-', .dir 'd', .ws,
    .dir 'H', .lit ':', .dir 'M', .lit ':', .dir 'S'] := by decide

/-- C84: every date and time of day written in the default format are read back exactly. -/
theorem C84_default_format {y m d : ℕ} (hv : Valid y m d) {h mi s : ℕ} (hh : h < 24) (hm : mi < 60)
    (hs : s < 60) (year : Option ℤ) :
    convertTime year none none none (some (dateText y m d)) (some (pad2 h ++ ':' :: (pad2 mi ++ ':' :: pad2 s)))
      "%Y-%m-%d %H:%M:%S".toList = .ok (midnight y m d + ((h * 60 + mi) * 60 + s) * 1000000) := by
  obtain ⟨h1, h2, h3, h4, h5, h6⟩ := hv
  have colon : ∀ t, Stops (':' :: t) := fun t => stops_cons (by decide)
  have e1 : matchToks [.dir 'S'] (pad2 s) = some ([('S', s)], []) := by
    have := match_dir (reads_pad (c := 'S') (fun t => ⟨[], by rw [alts_S, List.append_nil]⟩) (Nat.zero_le s)
      (show s ≤ 61 by omega) (by omega)) stops_nil (ts := []) (f := []) (r := []) rfl
    rwa [List.append_nil] at this
  have e2 := match_dir (reads_pad (c := 'M') (fun t => ⟨[], by rw [alts_M, List.append_nil]⟩) (Nat.zero_le mi)
    (show mi ≤ 59 by omega) (by omega)) (colon (pad2 s)) (ts := .lit ':' :: [.dir 'S']) (by rw [match_lit, e1])
  have e3 := match_dir (reads_pad (c := 'H') (fun t => ⟨[], by rw [alts_H, List.append_nil]⟩) (Nat.zero_le h)
    (show h ≤ 23 by omega) (by omega)) (colon (pad2 mi ++ ':' :: pad2 s))
    (ts := .lit ':' :: [.dir 'M', .lit ':', .dir 'S']) (by rw [match_lit, e2])
  have e4 : matchToks (.ws :: [.dir 'H', .lit ':', .dir 'M', .lit ':', .dir 'S'])
      (' ' :: (pad2 h ++ ':' :: (pad2 mi ++ ':' :: pad2 s))) = some ([('H', h), ('M', mi), ('S', s)], []) := by
    have hd : isDig (digitChar (h / 10)) = true := digitChar_dig (by omega)
    change matchToks _ (' ' :: digitChar (h / 10) :: _) = _
    rw [match_ws (dig_not_ws hd)]
    exact e3
  have e5 := ymd_match h2 h3 h4 h5 (day_le h3 h4 h6) (stops_space _) e4
  have e6 : convertTime year none none none (some (dateText y m d)) (some (pad2 h ++ ':' :: (pad2 mi ++ ':' :: pad2 s)))
      "%Y-%m-%d %H:%M:%S".toList = parseDay (dateText y m d ++ ' ' :: (pad2 h ++ ':' :: (pad2 mi ++ ':' :: pad2 s)))
      "%Y-%m-%d %H:%M:%S".toList none := by
    cases year <;> rfl
  rw [e6]
  unfold parseDay strptime dateText
  rw [default_toks]
  simp only
  rw [if_pos (by decide), e5]
  simp only
  have hb : build [('Y', y), ('m', m), ('d', d), ('H', h), ('M', mi), ('S', s)] = .ok (stamp (ordinal y m d) h mi s 0) := by
    have l1 : List.lookup 'j' [('Y', y), ('m', m), ('d', d), ('H', h), ('M', mi), ('S', s)] = none := rfl
    have l2 : getField [('Y', y), ('m', m), ('d', d), ('H', h), ('M', mi), ('S', s)] 'Y' 1900 = y := rfl
    have l3 : getField [('Y', y), ('m', m), ('d', d), ('H', h), ('M', mi), ('S', s)] 'm' 1 = m := rfl
    have l4 : getField [('Y', y), ('m', m), ('d', d), ('H', h), ('M', mi), ('S', s)] 'd' 1 = d := rfl
    have l5 : getField [('Y', y), ('m', m), ('d', d), ('H', h), ('M', mi), ('S', s)] 'S' 0 = s := rfl
    have l6 : getField [('Y', y), ('m', m), ('d', d), ('H', h), ('M', mi), ('S', s)] 'H' 0 = h := rfl
    have l7 : getField [('Y', y), ('m', m), ('d', d), ('H', h), ('M', mi), ('S', s)] 'M' 0 = mi := rfl
    have l8 : getField [('Y', y), ('m', m), ('d', d), ('H', h), ('M', mi), ('S', s)] 'f' 0 = 0 := rfl
    have hv : Valid y m d := ⟨h1, h2, h3, h4, h5, h6⟩
    unfold build dateOf
    simp only [l1, l2, l3, l4, l5, l6, l7, l8, hv, if_true]
    rw [if_pos (by omega)]
  have hr : stamp (ordinal y m d) h mi s 0 = midnight y m d + ((h * 60 + mi) * 60 + s) * 1000000 := by
    rw [stamp_eq]
    unfold midnight
    push_cast
    ring
  rw [hb, hr]

example : Valid 79 8 24 ∧ dateText 79 8 24 = "0079-08-24".toList ∧ dateText 2000 2 29 = "2000-02-29".toList :=
  ⟨by decide, by decide, by decide⟩

/-! ### C85 -/

/-- C85 is false: a day of the year above 366 makes `convert_time` fail with UnboundLocalError, not ValueError, whatever
the other arguments. -/
theorem C85_bad_day_refuted {s off ddd : Name} (h : IsYyddd s off ddd) (hy : value off + 1900 ≤ 9999)
    (hj : 366 < value ddd) (sod : Option ℝ) (date tod : Option Name) (fmt : Name) (year : Option ℤ) :
    convertTime year none (some s) sod date tod fmt = .error .unboundLocal := by
  obtain ⟨rest, e⟩ := yj_above (y := value off + 1900) (by omega) hy h.2.2.1 h.2.2.2.1 hj
  have e1 : convertTime year none (some s) sod date tod fmt = (match yydddParse s with
      | .error e => .error e
      | .ok (.error (.remains _)) => .error .unboundLocal
      | .ok (.error _) => .error .valueError
      | .ok (.ok t) => joinParse (some (writeDate (t / 86400000000).toNat)) tod (dateFmt fmt) sod) := by
    cases year <;> rfl
  rw [e1, yydddParse_eq h, e]

example : IsYyddd "99367".toList "99".toList "367".toList ∧ 366 < value "367".toList :=
  ⟨⟨by decide, by decide, by decide, by decide, .inl (by decide)⟩, by decide⟩

/-- C85 as far as it holds: without `yyddd` and with a date, a failure is ValueError or, for seconds that lead out of the
calendar, OverflowError. -/
theorem C85_date_partial (year : Option ℤ) (soy : Option ℝ) (sod : Option ℝ) (date : Name) (tod : Option Name) (fmt : Name)
    {e : PyErr} (h : convertTime year soy none sod (some date) tod fmt = .error e) : e = .valueError ∨ e = .overflowError := by
  have hv : ∀ (a : Except TErr ℤ), orValueError a = .error e → e = .valueError := by
    intro a ha
    cases a with
    | ok _ => simp [orValueError] at ha
    | error _ => simpa [orValueError] using ha.symm
  have hp : ∀ str f, parseDay str f sod = .error e → e = .valueError ∨ e = .overflowError := by
    intro str f hp
    unfold parseDay at hp
    split at hp
    · split at hp
      · simp at hp
      · unfold addSod at hp
        rename_i x
        obtain ⟨w, hw⟩ : ∃ w, w = if 0 ≤ x then ⌊x⌋ else ⌈x⌉ := ⟨_, rfl⟩
        simp only [← hw] at hp
        split at hp
        · split at hp
          · split at hp
            · simp at hp
            · right; injection hp with hp; exact hp.symm
          · simp at hp
        · right; injection hp with hp; exact hp.symm
    · exact .inl (hv _ hp)
    · left; simpa using hp.symm
  have hj : convertTime year soy none sod (some date) tod fmt = joinParse (some date) tod fmt sod ∨
      ∃ y s, convertTime year soy none sod (some date) tod fmt = yearSoy y s := by
    cases year with
    | none => exact .inl rfl
    | some y =>
      cases soy with
      | none => exact .inl rfl
      | some s => exact .inr ⟨y, s, rfl⟩
  rcases hj with hj | ⟨y, s, hj⟩
  · rw [hj] at h
    unfold joinParse at h
    cases tod with
    | none => exact hp _ _ h
    | some t => exact hp _ _ h
  · rw [hj] at h
    exact .inl (hv _ h)

end Ocb.Text
