import Verif.Props.Ascii

/-!
# Further properties of `load_ascii_data`: the words of the format (C101) and names with a separator (C104)
-/

set_option autoImplicit false

namespace Ocb.Ascii

open Ocb.Files (Name lower)
open Ocb.Text
open Ocb.Vort (F Conv toFloat readInt_dec)

/-! ### Letters -/

theorem up_low (c : Char) : c.toLower.toUpper = c.toUpper := by
  apply Char.ext
  have hA : 'A'.val = 65 := rfl
  have hZ : 'Z'.val = 90 := rfl
  have ha : 'a'.val = 97 := rfl
  have hz : 'z'.val = 122 := rfl
  have hlt := c.val.toNat_lt
  unfold Char.toLower Char.toUpper
  simp only [hA, hZ, ha, hz, ge_iff_le, UInt32.le_iff_toNat_le, UInt32.reduceToNat, UInt32.reduceSub]
  by_cases h1 : 65 ≤ c.val.toNat ∧ c.val.toNat ≤ 90
  · have h2 : ¬ (97 ≤ c.val.toNat ∧ c.val.toNat ≤ 122) := by omega
    have h3 : (c.val + 32).toNat = c.val.toNat + 32 := by
      simp only [UInt32.toNat_add, UInt32.reduceToNat]; omega
    have h4 : 97 ≤ (c.val + 32).toNat ∧ (c.val + 32).toNat ≤ 122 := by omega
    rw [dif_neg h2]
    simp only [h1, and_self, dite_true, h4]
    rw [← UInt32.toNat_inj]
    simp only [UInt32.toNat_add, UInt32.reduceToNat]
    omega
  · simp only [h1, dite_false]

theorem upper_lower (n : Name) : upper (lower n) = upper n := by
  simp only [upper, lower, List.map_map]
  exact List.map_congr_left fun c _ => up_low c

/-- A word does not start with a percent sign when its small letters do not. -/
theorem not_percent {p : Name} {w : Name} (h : lower p = w) (hw : w.head? ≠ some '%') (cs : Name) : p ≠ '%' :: cs := by
  rintro rfl
  rw [← h] at hw
  exact hw rfl

theorem le_fmtLen (f : Name) : f.length ≤ fmtLen f := by
  have : ∀ (l : List (Name × ℕ)) (n : ℕ), n ≤ l.foldl (fun n d => if Ocb.Files.contains d.1 f then n + d.2 else n) n := by
    intro l
    induction l with
    | nil => exact fun n => le_refl n
    | cons d l ih =>
      intro n
      refine le_trans ?_ (ih _)
      by_cases hd : Ocb.Files.contains d.1 f = true
      · simp only [hd, if_true]; exact Nat.le_add_right _ _
      · simp only [hd, if_false]; exact le_refl _
  exact this addLen f.length

/-! ### One column of the time -/

theorem gather_cell {float : Conv} {tys : List Ty} {ps : List Name} {row : List Name} {c i : ℕ} {cs : List (ℕ × ℕ)}
    {t t' : TimeIn} (h : gather float tys ps (.row row) ((c, i) :: cs) t = .ok t') :
    ∃ w ty v p t1, row[c]? = some w ∧ tys[c]? = some ty ∧ cast float ty w = .ok v ∧ ps[i]? = some p ∧
      addPart float p v t = .ok t1 ∧ gather float tys ps (.row row) cs t1 = .ok t' := by
  simp only [gather, bind, Except.bind, fetchDate] at h
  cases hr : row[c]? with
  | none => simp [hr] at h
  | some w =>
    cases ht : tys[c]? with
    | none => simp [hr, ht] at h
    | some ty =>
      simp only [hr, ht] at h
      cases hv : cast float ty w with
      | error e => simp [hv] at h
      | ok v =>
        simp only [hv] at h
        cases hp : ps[i]? with
        | none => simp [hp] at h
        | some p =>
          simp only [hp] at h
          cases ha : addPart float p v t with
          | error e => simp [ha] at h
          | ok t1 =>
            simp only [ha] at h
            exact ⟨w, ty, v, p, t1, rfl, rfl, hv, rfl, ha, h⟩

/-- A part of the year and seconds of the year -/
theorem add_year {float : Conv} {p : Name} (hp : lower p = "year".toList) {v : Val} {t t' : TimeIn} (ht : t.year = none)
    (h : addPart float p v t = .ok t') : ∃ z, toInt v = .ok z ∧ t' = { t with year := some z } := by
  unfold addPart at h
  split at h
  · rename_i cs
    exact (not_percent hp (by decide) cs rfl).elim
  · simp only [hp, if_true, ht] at h
    cases hz : toInt v with
    | error e => simp [hz, Except.map] at h
    | ok z =>
      simp only [hz, Except.map, Except.ok.injEq] at h
      exact ⟨z, rfl, h.symm⟩

theorem add_soy {float : Conv} {p : Name} (hp : lower p = "soy".toList) {v : Val} {t t' : TimeIn} (ht : t.soy = none)
    (h : addPart float p v t = .ok t') : ∃ z, toInt v = .ok z ∧ t' = { t with soy := some z } := by
  unfold addPart at h
  split at h
  · rename_i cs
    exact (not_percent hp (by decide) cs rfl).elim
  · simp only [hp, show "soy".toList ≠ "year".toList by decide, if_false, if_true, ht] at h
    cases hz : toInt v with
    | error e => simp [hz, Except.map] at h
    | ok z =>
      simp only [hz, Except.map, Except.ok.injEq] at h
      exact ⟨z, rfl, h.symm⟩

theorem add_sod {float : Conv} {p : Name} (hp : lower p = "sod".toList) {v : Val} {t t' : TimeIn} (ht : t.sod = none)
    (h : addPart float p v t = .ok t') : ∃ z, toF float v = .ok z ∧ t' = { t with sod := some z } := by
  unfold addPart at h
  split at h
  · rename_i cs
    exact (not_percent hp (by decide) cs rfl).elim
  · simp only [hp, show "sod".toList ≠ "year".toList by decide, show "sod".toList ≠ "soy".toList by decide, if_false, if_true,
      ht] at h
    cases hz : toF float v with
    | error e => simp [hz, Except.map] at h
    | ok z =>
      simp only [hz, Except.map, Except.ok.injEq] at h
      exact ⟨z, rfl, h.symm⟩

theorem add_yyddd {float : Conv} {p : Name} (hp : lower p = "yyddd".toList) {s : Name} {t t' : TimeIn} (ht : t.yyddd = none)
    (h : addPart float p (.txt s) t = .ok t') : t' = { t with yyddd := some s } := by
  unfold addPart at h
  split at h
  · rename_i cs
    exact (not_percent hp (by decide) cs rfl).elim
  · simp only [hp, show "yyddd".toList ≠ "year".toList by decide, show "yyddd".toList ≠ "soy".toList by decide,
      show "yyddd".toList ≠ "sod".toList by decide, if_false, if_true, ht, Except.ok.injEq] at h
    exact h.symm

/-- A whole number that is short enough is read from a column of text as from one of whole numbers. -/
theorem whole_cell {float : Conv} {ty : Ty} {n : ℕ} {w : Name} {z z' : ℤ} {v : Val} (hw : readInt w = .ok z)
    (hl : w.length ≤ n) (ht : ty = .int ∨ ty = .str n) (hv : cast float ty w = .ok v) (hz : toInt v = .ok z') : z' = z := by
  rcases ht with rfl | rfl
  · simp only [cast, hw, Except.map, Except.ok.injEq] at hv
    subst hv
    simpa [toInt] using hz.symm
  · simp only [cast, Except.ok.injEq, List.take_of_length_le hl] at hv
    subst hv
    simp only [toInt, hw, Except.ok.injEq] at hz
    exact hz.symm

/-- A column of the time that is not the seconds of the day has text or whole numbers. -/
theorem date_ty {a : Args} {ints : List ℕ} {n : ℕ} {tys : List Ty} (h : colTys a ints n = .ok tys) {fmt : Name}
    (hf : a.fmt = some fmt) {i c : ℕ} (hc : a.dateCols[i]? = some c) {p : Name} (hp : (parts a.fmt)[i]? = some p)
    (hs : find "SOD".toList (upper p) = none) {ty : Ty} (ht : tys[c]? = some ty) : ty = .int ∨ ty = .str (strLen a) := by
  by_cases hi : c ∈ ints
  · obtain ⟨h1, h2⟩ := colTys_get h
    have hlt : c < n := by
      rw [← h1]
      exact (List.getElem?_eq_some_iff.1 ht).1
    rw [h2 c hlt, Option.some.injEq, wanted] at ht
    rw [← ht]
    split
    · exact .inr rfl
    · exact .inl rfl
  · rw [text_cols h hf hc hp hs hi, Option.some.injEq] at ht
    exact .inr ht.symm

/-- The seconds of the day are numbers, unless their column is declared otherwise. -/
theorem sod_ty {a : Args} {ints : List ℕ} {n : ℕ} {tys : List Ty} (h : colTys a ints n = .ok tys) {c d : ℕ}
    (hcols : a.dateCols = [c, d]) {p q : Name} (hp : parts a.fmt = [p, q]) (hq : find "SOD".toList (upper q) ≠ none)
    (hcd : d ≠ c) (hi : d ∉ ints) (hs : d ∉ a.strCols) {ty : Ty} (ht : tys[d]? = some ty) : ty = .float := by
  obtain ⟨h1, h2⟩ := colTys_get h
  have hlt : d < n := by
    rw [← h1]
    exact (List.getElem?_eq_some_iff.1 ht).1
  rw [h2 d hlt, Option.some.injEq, wanted, if_neg, if_neg hi] at ht
  · exact ht.symm
  · rintro (h | ⟨-, -, i, p', e1, e2, e3⟩)
    · exact hs h
    · rw [hcols] at e1
      rw [hp] at e2
      match i with
      | 0 => exact hcd (by simpa using e1.symm)
      | 1 =>
        simp only [List.getElem?_cons_succ, List.getElem?_cons_zero, Option.some.injEq] at e2
        rw [e2] at hq
        exact hq e3
      | i + 2 => simp at e1

theorem zip_two (c d : ℕ) : [c, d].zipIdx = [(c, 0), (d, 1)] := rfl

/-- The time of one row -/
theorem row_time {float : Conv} {a : Args} {f : File} {r : Res} (h : load float a f = .ok r) (hg : f.good = true)
    (hh : moreHeader a f ≠ []) (hr : 2 ≤ f.rows.length) (hc : ∀ row ∈ f.rows, 2 ≤ row.length) (hn : r.keys.Nodup)
    {fmt : Name} (hf : a.fmt = some fmt) (hd : a.dateCols ≠ []) {i : ℕ} {row : List Name} (hrow : f.rows[i]? = some row) :
    ∃ tys ti x, colTys a r.intCols (r.names a).length = .ok tys ∧
      gather float tys (parts a.fmt) (.row row) a.dateCols.zipIdx TimeIn.empty = .ok ti ∧
      toTime ti fmt = .ok x ∧ (r.out r.timeName)[i]? = some (.time x) := by
  obtain ⟨tys, h1, h2⟩ := load_time h hg hh hr hc hn hf hd
  rw [List.forall₂_iff_get] at h2
  obtain ⟨e1, e2⟩ := h2
  obtain ⟨hlt, hget⟩ := List.getElem?_eq_some_iff.1 hrow
  obtain ⟨ti, x, g1, g2, g3⟩ := e2 i hlt (by omega)
  rw [List.get_eq_getElem, hget] at g1
  refine ⟨tys, ti, x, h1, g1, g2, ?_⟩
  rw [List.getElem?_eq_getElem (by omega), ← g3]
  rfl

/-- C101 for a format of the words year and seconds of the year, in any letters and either order: each row gets the time
that is so many seconds after the start of that year, whichever columns the two numbers stand in. -/
theorem C101_year_soy {float : Conv} {a : Args} {f : File} {r : Res} (h : load float a f = .ok r) (hg : f.good = true)
    (hh : moreHeader a f ≠ []) (hr : 2 ≤ f.rows.length) (hc : ∀ row ∈ f.rows, 2 ≤ row.length) (hn : r.keys.Nodup)
    {fmt p q : Name} (hf : a.fmt = some fmt) (hp : fmt.splitOn ' ' = [p, q]) {year soy : ℕ}
    (hw : lower p = "year".toList ∧ lower q = "soy".toList ∧ a.dateCols = [year, soy] ∨
      lower p = "soy".toList ∧ lower q = "year".toList ∧ a.dateCols = [soy, year])
    {i y s : ℕ} {row : List Name} (hrow : f.rows[i]? = some row) (hy : 1000 ≤ y) (hy' : y ≤ 9999) (hs : s < 366 * 86400)
    (hl : y < 9999 ∨ s < 365 * 86400) (h1 : row[year]? = some (dec y)) (h2 : row[soy]? = some (dec s)) :
    (r.out r.timeName)[i]? = some (.time (jan1 y + s * 1000000)) := by
  have hd : a.dateCols ≠ [] := by rcases hw with ⟨-, -, e⟩ | ⟨-, -, e⟩ <;> simp [e]
  obtain ⟨tys, ti, x, c1, g1, g2, g3⟩ := row_time h hg hh hr hc hn hf hd hrow
  have hparts : parts a.fmt = [p, q] := by rw [hf]; exact hp
  have hlen : 8 ≤ strLen a := by
    have e : fmt.length = 8 := by
      have := List.intercalate_splitOn (xs := fmt) ' '
      rw [hp] at this
      have l1 : ∀ n : Name, (lower n).length = n.length := fun n => by simp [lower]
      rw [← this]
      rcases hw with ⟨e1, e2, -⟩ | ⟨e1, e2, -⟩
      · have f1 := l1 p; have f2 := l1 q
        rw [e1] at f1; rw [e2] at f2
        simp [List.intercalate, ← f1, ← f2]
      · have f1 := l1 p; have f2 := l1 q
        rw [e1] at f1; rw [e2] at f2
        simp [List.intercalate, ← f1, ← f2]
    simp only [strLen, hf]
    refine le_trans ?_ (le_max_right _ _)
    rw [← e]
    exact le_fmtLen fmt
  have ly : (dec y).length ≤ strLen a := by
    have : (dec y).length ≤ 4 := by rw [dec_length _ _ (by norm_num)]; omega
    omega
  have ls : (dec s).length ≤ strLen a := by
    have : (dec s).length ≤ 8 := by rw [dec_length _ _ (by norm_num)]; omega
    omega
  have noSod : ∀ n : Name, lower n = "year".toList ∨ lower n = "soy".toList → find "SOD".toList (upper n) = none := by
    rintro n (e | e) <;> rw [← upper_lower, e] <;> decide
  have hti : ti = { TimeIn.empty with year := some (y : ℤ), soy := some (s : ℤ) } := by
    rcases hw with ⟨e1, e2, e3⟩ | ⟨e1, e2, e3⟩
    · rw [e3, zip_two] at g1
      obtain ⟨w, ty, v, p1, t1, a1, a2, a3, a4, a5, a6⟩ := gather_cell g1
      obtain ⟨w', ty', v', p1', t1', b1, b2, b3, b4, b5, b6⟩ := gather_cell a6
      rw [hparts] at a4 b4
      cases a4
      cases b4
      rw [h1, Option.some.injEq] at a1
      rw [h2, Option.some.injEq] at b1
      subst a1
      subst b1
      obtain ⟨z, z1, rfl⟩ := add_year e1 rfl a5
      obtain ⟨z', z2, rfl⟩ := add_soy e2 rfl b5
      have := date_ty c1 hf (i := 0) (by rw [e3]; rfl) (by rw [hparts]; rfl) (noSod p (.inl e1)) a2
      have k1 := whole_cell (readInt_dec y) ly this a3 z1
      have := date_ty c1 hf (i := 1) (by rw [e3]; rfl) (by rw [hparts]; rfl) (noSod q (.inr e2)) b2
      have k2 := whole_cell (readInt_dec s) ls this b3 z2
      simp only [gather, Except.ok.injEq] at b6
      rw [← b6, k1, k2]
    · rw [e3, zip_two] at g1
      obtain ⟨w, ty, v, p1, t1, a1, a2, a3, a4, a5, a6⟩ := gather_cell g1
      obtain ⟨w', ty', v', p1', t1', b1, b2, b3, b4, b5, b6⟩ := gather_cell a6
      rw [hparts] at a4 b4
      cases a4
      cases b4
      rw [h2, Option.some.injEq] at a1
      rw [h1, Option.some.injEq] at b1
      subst a1
      subst b1
      obtain ⟨z, z1, rfl⟩ := add_soy e1 rfl a5
      obtain ⟨z', z2, rfl⟩ := add_year e2 rfl b5
      have := date_ty c1 hf (i := 0) (by rw [e3]; rfl) (by rw [hparts]; rfl) (noSod p (.inr e1)) a2
      have k1 := whole_cell (readInt_dec s) ls this a3 z1
      have := date_ty c1 hf (i := 1) (by rw [e3]; rfl) (by rw [hparts]; rfl) (noSod q (.inl e2)) b2
      have k2 := whole_cell (readInt_dec y) ly this b3 z2
      simp only [gather, Except.ok.injEq] at b6
      rw [← b6, k1, k2]
  subst hti
  have e := C07_whole hy hy' s hs hl
  simp only [toTime, TimeIn.empty, asText, bind, Except.bind, convertTime, Option.map_some, Option.bind_some, pure,
    Int.cast_natCast] at g2
  rw [e, Except.ok.injEq] at g2
  rw [g3, g2]

/-- C101 for a format of the words year-and-day and seconds of the day: each row gets the time that is so many seconds after
the start of that day, to the microsecond. -/
theorem C101_yyddd_sod {float : Conv} {a : Args} {f : File} {r : Res} (h : load float a f = .ok r) (hg : f.good = true)
    (hh : moreHeader a f ≠ []) (hr : 2 ≤ f.rows.length) (hc : ∀ row ∈ f.rows, 2 ≤ row.length) (hn : r.keys.Nodup)
    (hf : a.fmt = some "YYDDD SOD".toList) {c d : ℕ} (hcols : a.dateCols = [c, d]) (hcd : d ≠ c) (hci : c ∉ a.intCols)
    (hdi : d ∉ a.intCols) (hds : d ∉ a.strCols) {i : ℕ} {row : List Name} (hrow : f.rows[i]? = some row)
    {s off ddd : Name} (hy : IsYyddd s off ddd) (hlen : s.length ≤ a.maxLen) (hy1 : value off + 1900 ≤ 9999)
    (hj : 1 ≤ value ddd) (hj' : value ddd ≤ 366) (hl : value off + 1900 < 9999 ∨ value ddd < 366)
    (h1 : row[c]? = some s) {u : Name} {x : ℝ} (h2 : row[d]? = some u) (hu : float u = some (some x)) (h0 : 0 ≤ x)
    (hhi : ((jan1 (value off + 1900) + (value ddd - 1) * 86400000000 : ℤ) : ℝ) + x * 1000000 ≤ maxStamp) :
    ∃ t, (r.out r.timeName)[i]? = some (.time t) ∧
      Within (jan1 (value off + 1900) + (value ddd - 1) * 86400000000) x t := by
  have hint : r.intCols = a.intCols := C102_as_asked_partial h (by
    intro fmt e
    rw [hf, Option.some.injEq] at e
    subst e
    exact ⟨by decide, by decide⟩)
  obtain ⟨tys, ti, t, c1, g1, g2, g3⟩ := row_time h hg hh hr hc hn hf (by simp [hcols]) hrow
  have hparts : parts a.fmt = ["YYDDD".toList, "SOD".toList] := by rw [hf]; decide
  rw [hint] at c1
  have hty := text_cols c1 hf (i := 0) (c := c) (by simp [hcols]) (by rw [hparts]; rfl) (by decide) hci
  rw [hcols, zip_two] at g1
  obtain ⟨w, ty, v, p1, t1, a1, a2, a3, a4, a5, a6⟩ := gather_cell g1
  obtain ⟨w', ty', v', p1', t1', b1, b2, b3, b4, b5, b6⟩ := gather_cell a6
  rw [hparts] at a4 b4
  cases a4
  cases b4
  rw [h1, Option.some.injEq] at a1
  rw [h2, Option.some.injEq] at b1
  subst a1
  subst b1
  rw [hty, Option.some.injEq] at a2
  subst a2
  have hl' : s.length ≤ strLen a := by
    simp only [strLen, hf]
    exact le_trans hlen (le_max_left _ _)
  simp only [cast, Except.ok.injEq, List.take_of_length_le hl'] at a3
  subst a3
  have := sod_ty c1 hcols hparts (by decide) hcd hdi hds b2
  subst this
  simp only [cast, toFloat, hu, Except.map, Except.ok.injEq] at b3
  subst b3
  have k1 := add_yyddd (by decide) rfl a5
  subst k1
  obtain ⟨z, z1, rfl⟩ := add_sod (by decide) rfl b5
  simp only [toF, Except.ok.injEq] at z1
  subst z1
  simp only [gather, Except.ok.injEq] at b6
  subst b6
  obtain ⟨t', e1, e2⟩ := C09_yyddd_partial hy hy1 hj hj' hl h0 hhi _ (.inl rfl)
  simp only [toTime, TimeIn.empty, asText, bind, Except.bind, Option.map, Option.bind, id] at g2
  rw [e1, Except.ok.injEq] at g2
  exact ⟨t, g3, g2 ▸ e2⟩

/-- C101 for a format of a date and the word seconds of the day. -/
theorem C101_date_sod {float : Conv} {a : Args} {f : File} {r : Res} (h : load float a f = .ok r) (hg : f.good = true)
    (hh : moreHeader a f ≠ []) (hr : 2 ≤ f.rows.length) (hc : ∀ row ∈ f.rows, 2 ≤ row.length) (hn : r.keys.Nodup)
    (hf : a.fmt = some "%Y-%m-%d SOD".toList) {c d : ℕ} (hcols : a.dateCols = [c, d]) (hcd : d ≠ c) (hci : c ∉ a.intCols)
    (hdi : d ∉ a.intCols) (hds : d ∉ a.strCols) {i : ℕ} {row : List Name} (hrow : f.rows[i]? = some row)
    {y m dd : ℕ} (hv : Valid y m dd) (h1 : row[c]? = some (dateText y m dd)) {u : Name} {x : ℝ}
    (h2 : row[d]? = some u) (hu : float u = some (some x)) (h0 : 0 ≤ x)
    (hhi : (midnight y m dd : ℝ) + x * 1000000 ≤ maxStamp) :
    ∃ t, (r.out r.timeName)[i]? = some (.time t) ∧ Within (midnight y m dd) x t := by
  have hint : r.intCols = a.intCols := C102_as_asked_partial h (by
    intro fmt e
    rw [hf, Option.some.injEq] at e
    subst e
    exact ⟨by decide, by decide⟩)
  obtain ⟨tys, ti, t, c1, g1, g2, g3⟩ := row_time h hg hh hr hc hn hf (by simp [hcols]) hrow
  have hparts : parts a.fmt = ["%Y-%m-%d".toList, "SOD".toList] := by rw [hf]; decide
  rw [hint] at c1
  have hty := text_cols c1 hf (i := 0) (c := c) (by simp [hcols]) (by rw [hparts]; rfl) (by decide) hci
  rw [hcols, zip_two] at g1
  obtain ⟨w, ty, v, p1, t1, a1, a2, a3, a4, a5, a6⟩ := gather_cell g1
  obtain ⟨w', ty', v', p1', t1', b1, b2, b3, b4, b5, b6⟩ := gather_cell a6
  rw [hparts] at a4 b4
  cases a4
  cases b4
  rw [h1, Option.some.injEq] at a1
  rw [h2, Option.some.injEq] at b1
  subst a1
  subst b1
  rw [hty, Option.some.injEq] at a2
  subst a2
  have hl' : (dateText y m dd).length ≤ strLen a := by
    have e2 : 12 ≤ strLen a := by
      simp only [strLen, hf]
      exact le_trans (by decide) (le_max_right _ _)
    simp [dateText, pad2, pad4]
    omega
  simp only [cast, Except.ok.injEq, List.take_of_length_le hl'] at a3
  subst a3
  have := sod_ty c1 hcols hparts (by decide) hcd hdi hds b2
  subst this
  simp only [cast, toFloat, hu, Except.map, Except.ok.injEq] at b3
  subst b3
  have k1 : t1 = { TimeIn.empty with date := some (.txt (dateText y m dd)) } := by
    simpa [addPart, timeLetters, join, Except.map, TimeIn.empty] using a5.symm
  subst k1
  obtain ⟨z, z1, rfl⟩ := add_sod (by decide) rfl b5
  simp only [toF, Except.ok.injEq] at z1
  subst z1
  simp only [gather, Except.ok.injEq] at b6
  subst b6
  obtain ⟨t', e1, e2⟩ := C09_date_partial hv h0 hhi _ (.inr (.inl rfl))
  simp only [toTime, TimeIn.empty, asText, bind, Except.bind, Option.map, Option.bind, id] at g2
  rw [e1, Except.ok.injEq] at g2
  exact ⟨t, g3, g2 ▸ e2⟩

/-! ### Names with a separator -/

theorem drop_kept {p : Char → Bool} {l : Name} (h : ∀ c ∈ l.head?, p c = false) : l.dropWhile p = l := by
  cases l with
  | nil => rfl
  | cons c cs => rw [List.dropWhile_cons, if_neg]; simp [h c rfl]

/-- White space at the ends is taken off, and nothing else. -/
theorem strip_kept {l v : Name} (h1 : ∀ c ∈ l.head?, isWs c = false) (h2 : ∀ c ∈ l.getLast?, isWs c = false)
    (hv : v.all isWs = true) (hl : l ≠ []) : strip (l ++ v) = l := by
  have hd : (l ++ v).dropWhile isWs = l ++ v := by
    refine drop_kept ?_
    cases l with
    | nil => exact (hl rfl).elim
    | cons c cs => exact h1
  have hw : (v.reverse ++ l.reverse).dropWhile isWs = l.reverse.dropWhile isWs := by
    have : ∀ u : Name, (∀ x ∈ u, isWs x = true) → (u ++ l.reverse).dropWhile isWs = l.reverse.dropWhile isWs := by
      intro u hu
      induction u with
      | nil => rfl
      | cons c cs ih =>
        rw [List.cons_append, List.dropWhile_cons, if_pos (hu c (by simp)), ih fun x hx => hu x (by simp [hx])]
    exact this _ fun x hx => List.all_eq_true.1 hv x (List.mem_reverse.1 hx)
  rw [strip, hd, List.reverse_append, hw, drop_kept, List.reverse_reverse]
  rw [List.head?_reverse]
  exact h2

theorem strip_blank {v : Name} (hv : v.all isWs = true) : strip v = [] := by
  have : v.dropWhile isWs = [] := by
    induction v with
    | nil => rfl
    | cons c cs ih =>
      rw [List.all_cons, Bool.and_eq_true] at hv
      rw [List.dropWhile_cons, if_pos hv.1, ih hv.2]
  rw [strip, this]
  rfl

/-- Names with a separator between -/
def sepBy (c : Char) (l : List Name) : Name := List.intercalate [c] l

theorem sepBy_cons (c : Char) (w : Name) {l : List Name} (h : l ≠ []) : sepBy c (w :: l) = w ++ c :: sepBy c l := by
  cases l with
  | nil => exact (h rfl).elim
  | cons x xs => simp [sepBy, List.intercalate, List.intersperse]

theorem sepBy_one (c : Char) (w : Name) : sepBy c [w] = w := by simp [sepBy, List.intercalate]

theorem sepBy_mem {c x : Char} {l : List Name} (h : x ∈ sepBy c l) : x = c ∨ ∃ w ∈ l, x ∈ w := by
  induction l with
  | nil => simp [sepBy, List.intercalate] at h
  | cons w l ih =>
    by_cases hl : l = []
    · subst hl
      rw [sepBy_one] at h
      exact .inr ⟨w, by simp, h⟩
    · rw [sepBy_cons c w hl, List.mem_append, List.mem_cons] at h
      rcases h with h | h | h
      · exact .inr ⟨w, by simp, h⟩
      · exact .inl h
      · rcases ih h with h | ⟨w', h1, h2⟩
        · exact .inl h
        · exact .inr ⟨w', by simp [h1], h2⟩

theorem sepBy_head {c : Char} (hc : isWs c = false) {l : List Name} (hl : ∀ w ∈ l, ∀ x ∈ w.head?, isWs x = false) :
    ∀ x ∈ (sepBy c l).head?, isWs x = false := by
  cases l with
  | nil => simp [sepBy, List.intercalate]
  | cons w l =>
    by_cases h : l = []
    · subst h
      rw [sepBy_one]
      exact hl w (by simp)
    · rw [sepBy_cons c w h]
      cases w with
      | nil => intro x hx; simp at hx; rw [← hx]; exact hc
      | cons y ys => exact hl (y :: ys) (by simp)

theorem sepBy_last {c : Char} (hc : isWs c = false) {l : List Name} (hl : ∀ w ∈ l, ∀ x ∈ w.getLast?, isWs x = false) :
    ∀ x ∈ (sepBy c l).getLast?, isWs x = false := by
  induction l with
  | nil => simp [sepBy, List.intercalate]
  | cons w l ih =>
    by_cases h : l = []
    · subst h
      rw [sepBy_one]
      exact hl w (by simp)
    · rw [sepBy_cons c w h, List.getLast?_append_of_ne_nil _ (by simp)]
      have ih := ih fun w hw => hl w (by simp [hw])
      by_cases hs : sepBy c l = []
      · rw [hs]; intro x hx; simp at hx; rw [← hx]; exact hc
      · rw [List.getLast?_cons, List.getLast?_eq_getLast_of_ne_nil hs]
        intro x hx
        simp only [Option.getD_some, Option.mem_def, Option.some.injEq] at hx
        exact ih x (by rw [List.getLast?_eq_getLast_of_ne_nil hs, Option.mem_def, hx])

/-- C104 as far as it holds, with a separator: the names are the texts between the separators in the last header line, blanks
inside them included, and places where nothing stands between two separators give no name. -/
theorem C104_separator_partial {float : Conv} {a : Args} {f : File} {r : Res} (h : load float a f = .ok r) (hf : f.good = true)
    (ha : a.header = []) (hl : a.hlines ≠ 0) (hc : a.comments = none) {sep : Char} (hs : a.hsplit = some sep)
    (hs1 : isWs sep = false) (hs2 : sep ≠ '#') {names : List Name} (hne : names ≠ [])
    (hn : ∀ w ∈ names, sep ∉ w ∧ '#' ∉ w ∧ (∀ c ∈ w.head?, isWs c = false) ∧ ∀ c ∈ w.getLast?, isWs c = false)
    (hline : f.lines[a.hlines - 1]? = some (sepBy sep names ++ ['\n'])) : r.names a = names.filter fun w => w ≠ [] := by
  have hh : moreHeader a f ≠ [] := by simp [moreHeader, hl]
  obtain ⟨_, _, dt, _, -, -, b3, -, -, b6, -, b8, -⟩ := load_ok h hf hh
  rw [names_eq b3 b8]
  have hstrip : ∀ v : Name, v.all isWs = true → strip (sepBy sep names ++ v) = sepBy sep names := by
    intro v hv
    by_cases he : sepBy sep names = []
    · rw [he, List.nil_append, strip_blank hv]
    · exact strip_kept (sepBy_head hs1 fun w hw => (hn w hw).2.2.1) (sepBy_last hs1 fun w hw => (hn w hw).2.2.2) hv he
  have hlast : (moreHeader a f).getLastD [] = sepBy sep names := by
    obtain ⟨n, hn'⟩ := Nat.exists_eq_succ_of_ne_zero hl
    rw [moreHeader, ha, hn', List.range_succ]
    rw [hn'] at hline
    simp only [Nat.succ_eq_add_one, Nat.add_sub_cancel] at hline
    simp [hline, hstrip ['\n'] (by decide)]
  have hfil : (sepBy sep names).filter (fun c => decide (c ≠ '#')) = sepBy sep names := by
    refine List.filter_eq_self.2 fun c hc => ?_
    rw [decide_eq_true_eq]
    rintro rfl
    rcases sepBy_mem hc with h | ⟨w, h1, h2⟩
    · exact hs2 h.symm
    · exact (hn w h1).2.1 h2
  have h0 := hstrip [] rfl
  rw [List.append_nil] at h0
  simp only [keyList, ha, if_true, hc, hs, hlast, hfil, h0]
  rw [sepBy, List.splitOn_intercalate sep (fun w hw => (hn w hw).1) hne]

/-! ### Examples -/

/-- A call with names separated by commas -/
def commaArgs : Args := ⟨1, none, some ',', [], none, [], [0, 1], 50, []⟩

/-- A name with a blank, and an empty place -/
example (float : Conv) : ∃ r, load float commaArgs ⟨true, ["A B,,C\n".toList],
    [["70".toList, "80".toList], ["7".toList, "8".toList]]⟩ = .ok r ∧ r.names commaArgs = ["A B".toList, "C".toList] := by
  refine ⟨_, rfl, ?_⟩
  rw [Res.names, if_neg (fun h => h.1 rfl)]
  rfl

example : (∀ w ∈ ["A B".toList, [], "C".toList], ',' ∉ w ∧ '#' ∉ w ∧ (∀ c ∈ w.head?, isWs c = false) ∧
      ∀ c ∈ w.getLast?, isWs c = false) ∧
    "A B,,C\n".toList = sepBy ',' ["A B".toList, [], "C".toList] ++ ['\n'] := by decide

/-- A format of words has the parts that C101 asks for. -/
example : "Year SOY".toList.splitOn ' ' = ["Year".toList, "SOY".toList] ∧ lower "Year".toList = "year".toList ∧
    lower "SOY".toList = "soy".toList := by decide

/-- A call with a format of words -/
def soyArgs : Args := ⟨1, none, none, [0, 1], some "YEAR SOY".toList, [], [2], 50, []⟩

/-- Two rows in the year 2000 -/
def soyFile : File :=
  ⟨true, ["YEAR SOY B\n".toList], [[dec 2000, dec 86400, "a".toList], [dec 2000, dec 10800060, "b".toList]]⟩

/-- The hypotheses of C101 for such a format are met. -/
theorem soyFile_loaded (float : Conv) : ∃ r, load float soyArgs soyFile = .ok r ∧ r.keys.Nodup ∧
    (r.out r.timeName)[1]? = some (.time (jan1 2000 + 10800060 * 1000000)) := by
  have hk : keyList soyArgs (moreHeader soyArgs soyFile) = ["YEAR".toList, "SOY".toList, "B".toList] := by decide
  have hdt : timeKey soyArgs (keyList soyArgs (moreHeader soyArgs soyFile))
      = .ok (some ("datetime".toList, "YEAR SOY".toList)) := by rw [hk]; decide
  have hty : colTys soyArgs [0, 1] (keyList soyArgs (moreHeader soyArgs soyFile)).length = .ok [.int, .int, .str 50] := by
    rw [hk]; decide
  have hrow : ∀ l ∈ soyFile.rows.map Line.row, ∃ (n : ℕ) (w : Name), n < 366 * 86400 ∧ l = .row [dec 2000, dec n, w] := by
    intro l hl
    have : l = .row [dec 2000, dec 86400, "a".toList] ∨ l = .row [dec 2000, dec 10800060, "b".toList] := by
      simpa [soyFile] using hl
    rcases this with rfl | rfl
    · exact ⟨_, _, by norm_num, rfl⟩
    · exact ⟨_, _, by norm_num, rfl⟩
  have hint : ∀ n : ℕ, cast float .int (dec n) = .ok (.int n) := fun n => by simp [cast, readInt_dec, Except.map]
  obtain ⟨r, h1, h2, h3⟩ := load_succeeds (float := float) (a := soyArgs) (f := soyFile) rfl (by decide) (ints := [0, 1])
    (by decide) hty hdt (lines := soyFile.rows.map .row) rfl (by simp [soyFile]) (by rw [hk]; decide)
    (by
      rw [hk]
      intro l hl x hx
      obtain ⟨n, w, -, rfl⟩ := hrow l hl
      have hz : ["YEAR".toList, "SOY".toList, "B".toList].zipIdx = [("YEAR".toList, 0), ("SOY".toList, 1), ("B".toList, 2)] := rfl
      rw [hz] at hx
      rcases List.mem_cons.1 hx with rfl | hx
      · exact ⟨_, _, _, rfl, rfl, hint 2000⟩
      rcases List.mem_cons.1 hx with rfl | hx
      · exact ⟨_, _, _, rfl, rfl, hint n⟩
      · rw [List.mem_singleton.1 hx]; exact ⟨_, _, _, rfl, rfl, rfl⟩)
    (by
      intro l hl d hd
      rw [Option.mem_def, Option.some.injEq] at hd
      subst hd
      obtain ⟨n, w, hn, rfl⟩ := hrow l hl
      refine ⟨{ TimeIn.empty with year := some (2000 : ℕ), soy := some (n : ℤ) }, jan1 2000 + n * 1000000, ?_, ?_⟩
      · have e : soyArgs.dateCols.zipIdx = [(0, 0), (1, 1)] := rfl
        have e' : parts soyArgs.fmt = ["YEAR".toList, "SOY".toList] := by decide
        rw [e, e']
        simp only [gather, fetchDate, bind, Except.bind, List.getElem?_cons_zero, List.getElem?_cons_succ, hint]
        rfl
      · have e := C07_whole (y := 2000) (by norm_num) (by norm_num) n hn (.inl (by norm_num))
        simp only [toTime, TimeIn.empty, asText, bind, Except.bind, convertTime, Option.map_some, Option.bind_some, pure,
          Int.cast_natCast]
        exact e)
  refine ⟨r, h1, h3, ?_⟩
  have e := C101_year_soy h1 rfl (by decide) (by decide) (by
      intro row hm
      simp only [soyFile, List.mem_cons, List.not_mem_nil, or_false] at hm
      rcases hm with rfl | rfl <;> simp) h3 (fmt := "YEAR SOY".toList) rfl (p := "YEAR".toList) (q := "SOY".toList) (by decide)
    (year := 0) (soy := 1) (.inl ⟨by decide, by decide, rfl⟩) (i := 1) (y := 2000) (s := 10800060) rfl (by norm_num)
    (by norm_num) (by norm_num) (.inl (by norm_num)) rfl rfl
  exact_mod_cast e

end Ocb.Ascii
