import Verif.Props.Vort
import Verif.Model.Supermag

/-!
# Properties C58, C86, C87: SuperMAG files
-/

set_option autoImplicit false

namespace Ocb.Smag

open Ocb.Files (Name contains)
open Ocb.Text
open Ocb.Vort (F Conv toFloat wholes readInt_dec dec_cons)

/-! ### what a file says -/

/-- One block: its date line with the numbers it stands for, its index lines with their names and values, and its station
lines. -/
structure Block where
  date : Name
  cur : Cur
  idx : List (Name × Name × ℤ)
  stations : List Name

/-- The text at a place of a station line. -/
def text (l : Name) (i : ℕ) : Name := ((words l)[i]?).getD []

/-- The number at a place of a station line. -/
def num (float : Conv) (l : Name) (i : ℕ) : F := (float (text l i)).getD none

/-- A station line: at least eight texts, the second to the eighth of them numbers. -/
structure GoodStation (float : Conv) (l : Name) : Prop where
  long : 8 ≤ (words l).length
  num : ∀ i, 1 ≤ i → i ≤ 7 → ∃ x, float (text l i) = some x

/-- The date line gives an existing time and the number of stations; the index lines give SML or SMU. -/
structure Block.Fine (float : Conv) (b : Block) : Prop where
  date : ∃ y m d hh mi s n, words b.date = [y, m, d, hh, mi, s, n] ∧ readInt y = .ok b.cur.y ∧ readInt m = .ok b.cur.m ∧
    readInt d = .ok b.cur.d ∧ readInt hh = .ok b.cur.hh ∧ readInt mi = .ok b.cur.mi ∧ readInt s = .ok b.cur.s ∧
    readInt n = .ok b.cur.snum
  valid : Valid b.cur.y b.cur.m b.cur.d
  hour : b.cur.hh ≤ 23
  minute : b.cur.mi ≤ 59
  second : b.cur.s ≤ 59
  idx : ∀ p ∈ b.idx, (p.2.1 = "SML".toList ∨ p.2.1 = "SMU".toList) ∧
    ∃ v, words p.1 = [p.2.1, v] ∧ readInt v = .ok p.2.2
  stations : ∀ l ∈ b.stations, GoodStation float l

/-- The lines of a block. -/
def Block.lines (b : Block) : List Name := b.date :: (b.idx.map Prod.fst ++ b.stations)

/-- The index of a block: the last one given, 999999 if none is. -/
def Block.index (b : Block) (k : Name) : ℤ :=
  (b.idx.reverse.find? fun p => p.2.1 == k).elim 999999 fun p => p.2.2

/-- A number with the fill value as NaN. -/
noncomputable def clean (x : F) : F := if x = some 999999 then none else x

/-- One value for each station of each block. -/
def rows (bs : List Block) (f : Block → Name → Val) : List Val := bs.flatMap fun b => b.stations.map (f b)

/-- One row for each station of each block, in order, with the time, the number of stations and the indices of the block and
the texts of the station line; fill values are NaN except for the latitude. -/
structure Lists (float : Conv) (bs : List Block) (t : Table) : Prop where
  year : t "YEAR".toList = rows bs fun b _ => .int b.cur.y
  month : t "MONTH".toList = rows bs fun b _ => .int b.cur.m
  day : t "DAY".toList = rows bs fun b _ => .int b.cur.d
  hour : t "HOUR".toList = rows bs fun b _ => .int b.cur.hh
  minute : t "MIN".toList = rows bs fun b _ => .int b.cur.mi
  second : t "SEC".toList = rows bs fun b _ => .int b.cur.s
  time : t "DATETIME".toList = rows bs fun b _ =>
    .time (midnight b.cur.y b.cur.m b.cur.d + ((b.cur.hh * 60 + b.cur.mi) * 60 + b.cur.s) * 1000000)
  nst : t "NST".toList = rows bs fun b _ => .int b.cur.snum
  sml : t "SML".toList = rows bs fun b _ => .int (b.index "SML".toList)
  smu : t "SMU".toList = rows bs fun b _ => .int (b.index "SMU".toList)
  stid : t "STID".toList = rows bs fun _ l => .txt (text l 0)
  bn : t "BN".toList = rows bs fun _ l => .num (clean (num float l 1))
  be : t "BE".toList = rows bs fun _ l => .num (clean (num float l 2))
  bz : t "BZ".toList = rows bs fun _ l => .num (clean (num float l 3))
  mlt : t "MLT".toList = rows bs fun _ l => .num (clean (num float l 4))
  mlat : t "MLAT".toList = rows bs fun _ l => .num (num float l 5)
  dec : t "DEC".toList = rows bs fun _ l => .num (clean (num float l 6))
  sza : t "SZA".toList = rows bs fun _ l => .num (clean (num float l 7))

/-! ### reading -/

theorem run_append (float : Conv) (s : St) (l1 l2 : List Name) :
    run float s (l1 ++ l2) = (run float s l1).bind fun s => run float s l2 := by
  induction l1 generalizing s with
  | nil => rfl
  | cons l ls ih =>
    rw [List.cons_append, run, run]
    cases step float s l with
    | error e => rfl
    | ok s' => exact ih s'

theorem date_ok {float : Conv} {b : Block} (hb : b.Fine float) : dateLine b.date = .ok b.cur := by
  obtain ⟨y, m, d, hh, mi, s, n, hw, h1, h2, h3, h4, h5, h6, h7⟩ := hb.date
  unfold dateLine
  rw [hw]
  simp only [readInts, h1, h2, h3, h4, h5, h6, h7, List.getLastD_cons, List.getLastD_nil]
  unfold mkCur
  have := hb.hour
  have := hb.minute
  have := hb.second
  rw [if_pos ⟨by omega, by omega, by omega, by omega, by omega, by omega, by simpa using hb.valid, by omega, by omega,
    by omega⟩]
  simp

theorem setInd_two (a b z : ℤ) {k : Name} (hk : k = "SML".toList ∨ k = "SMU".toList) :
    setInd k z [("SMU".toList, a), ("SML".toList, b)] =
      [("SMU".toList, if k = "SMU".toList then z else a), ("SML".toList, if k = "SML".toList then z else b)] := by
  have h : "SMU".toList ≠ "SML".toList := by decide
  rcases hk with rfl | rfl
  · simp only [setInd]
    rw [if_neg h, if_neg h.symm]
    simp
  · simp only [setInd]
    rw [if_neg h]
    simp

/-- The two indices after some index lines. -/
def idxFrom (k : Name) (a : ℤ) : List (Name × Name × ℤ) → ℤ
  | [] => a
  | p :: ps => idxFrom k (if p.2.1 = k then p.2.2 else a) ps

theorem idxFrom_eq (k : Name) (a : ℤ) (l : List (Name × Name × ℤ)) :
    idxFrom k a l = (l.reverse.find? fun p => p.2.1 == k).elim a fun p => p.2.2 := by
  induction l generalizing a with
  | nil => rfl
  | cons p ps ih =>
    rw [idxFrom, ih, List.reverse_cons, List.find?_append]
    cases h : ps.reverse.find? fun p => p.2.1 == k with
    | some q => simp
    | none =>
      by_cases hp : p.2.1 = k
      · simp [hp]
      · simp [hp]

theorem idx_ok {float : Conv} (c : Cur) (out : Table) : ∀ (l : List (Name × Name × ℤ)) (a b : ℤ),
    (∀ p ∈ l, (p.2.1 = "SML".toList ∨ p.2.1 = "SMU".toList) ∧ ∃ v, words p.1 = [p.2.1, v] ∧ readInt v = .ok p.2.2) →
    run float ⟨some (c, 0), [("SMU".toList, a), ("SML".toList, b)], out⟩ (l.map Prod.fst) =
      .ok ⟨some (c, 0), [("SMU".toList, idxFrom "SMU".toList a l), ("SML".toList, idxFrom "SML".toList b l)], out⟩
  | [], _, _, _ => rfl
  | p :: ps, a, b, h => by
    obtain ⟨h1, v, h2, h3⟩ := h p (List.mem_cons_self ..)
    rw [List.map_cons, run, step]
    simp only [h2, h3]
    rw [setInd_two a b _ h1]
    exact idx_ok c out ps _ _ fun q hq => h q (List.mem_cons_of_mem _ hq)

/-- The table with the columns of one more row. -/
def rowOf (float : Conv) (c : Cur) (u v : ℤ) (l : Name) : List (Name × Val) :=
  timeCols c ++ [("SMU".toList, .int u), ("SML".toList, .int v)] ++
    [("STID".toList, .txt (text l 0)), ("BN".toList, .num (num float l 1)), ("BE".toList, .num (num float l 2)),
     ("BZ".toList, .num (num float l 3)), ("MLT".toList, .num (num float l 4)), ("MLAT".toList, .num (num float l 5)),
     ("DEC".toList, .num (num float l 6)), ("SZA".toList, .num (num float l 7))]

theorem word_ok {float : Conv} {l : Name} (h : GoodStation float l) {i : ℕ} (h1 : 1 ≤ i) (h2 : i ≤ 7) :
    word float (words l) i = .ok (num float l i) := by
  have hl := h.long
  obtain ⟨x, hx⟩ := h.num i h1 h2
  unfold num word toFloat
  unfold text at hx ⊢
  rw [List.getElem?_eq_getElem (by omega : i < (words l).length)] at hx ⊢
  simp only [Option.getD_some] at hx ⊢
  rw [hx]
  rfl

theorem cols_ok {float : Conv} {l : Name} (h : GoodStation float l) : stationCols float (words l) =
    .ok [("STID".toList, .txt (text l 0)), ("BN".toList, .num (num float l 1)), ("BE".toList, .num (num float l 2)),
     ("BZ".toList, .num (num float l 3)), ("MLT".toList, .num (num float l 4)), ("MLAT".toList, .num (num float l 5)),
     ("DEC".toList, .num (num float l 6)), ("SZA".toList, .num (num float l 7))] := by
  have hl := h.long
  unfold stationCols
  have h0 : (words l)[0]? = some (text l 0) := by
    unfold text
    rw [List.getElem?_eq_getElem (by omega : 0 < (words l).length)]
    rfl
  rw [h0]
  simp only [word_ok h (show 1 ≤ 1 by omega) (by omega), word_ok h (show 1 ≤ 2 by omega) (by omega),
    word_ok h (show 1 ≤ 3 by omega) (by omega), word_ok h (show 1 ≤ 4 by omega) (by omega),
    word_ok h (show 1 ≤ 5 by omega) (by omega), word_ok h (show 1 ≤ 6 by omega) (by omega),
    word_ok h (show 1 ≤ 7 by omega) (by omega), bind, Except.bind, pure, Except.pure]

theorem station_step {float : Conv} {l : Name} (h : GoodStation float l) (c : Cur) (n u v : ℤ) (out : Table) :
    step float ⟨some (c, n), [("SMU".toList, u), ("SML".toList, v)], out⟩ l =
      .ok (if n + 1 = c.snum then ⟨none, noInd, put (rowOf float c u v l) out⟩
        else ⟨some (c, n + 1), [("SMU".toList, u), ("SML".toList, v)], put (rowOf float c u v l) out⟩) := by
  have hl := h.long
  rw [step]
  simp only
  split
  · rename_i h2
    rw [h2] at hl
    simp at hl
  · unfold stationLine
    rw [if_pos (by simp only [List.all_cons, List.all_nil]; decide), cols_ok h]
    simp only [List.map_cons, List.map_nil]
    unfold rowOf
    split <;> rfl

/-- The table after some stations of a block. -/
def putAll (float : Conv) (c : Cur) (u v : ℤ) (ls : List Name) (t : Table) : Table :=
  ls.foldl (fun t l => put (rowOf float c u v l) t) t

theorem stations_ok {float : Conv} (c : Cur) (u v : ℤ) : ∀ (ls : List Name) (n : ℤ) (out : Table),
    (∀ l ∈ ls, GoodStation float l) → ls ≠ [] → n + ls.length ≤ c.snum →
    run float ⟨some (c, n), [("SMU".toList, u), ("SML".toList, v)], out⟩ ls =
      .ok (if n + ls.length = c.snum then ⟨none, noInd, putAll float c u v ls out⟩
        else ⟨some (c, n + ls.length), [("SMU".toList, u), ("SML".toList, v)], putAll float c u v ls out⟩)
  | [], _, _, _, h, _ => absurd rfl h
  | [l], n, out, h, _, hn => by
    simp only [run, station_step (h l (List.mem_singleton_self l))]
    rfl
  | l :: l2 :: ls, n, out, h, _, hn => by
    rw [run, station_step (h l (List.mem_cons_self ..))]
    simp only [List.length_cons] at hn
    push_cast at hn
    rw [if_neg (by omega)]
    simp only
    rw [stations_ok c u v (l2 :: ls) (n + 1) _ (fun x hx => h x (List.mem_cons_of_mem _ hx)) (by simp)
      (by simp only [List.length_cons]; push_cast; omega)]
    have e : n + 1 + ((l2 :: ls).length : ℤ) = n + ((l :: l2 :: ls).length : ℤ) := by
      simp only [List.length_cons]; push_cast; omega
    rw [e]
    rfl

theorem index_eq (b : Block) (k : Name) : idxFrom k fillVal b.idx = b.index k := by
  rw [idxFrom_eq]
  rfl

/-- What a block adds, and where the reader is afterwards. -/
theorem block_ok {float : Conv} {b : Block} (hb : b.Fine float) (hne : b.stations ≠ []) (hn : b.stations.length ≤ b.cur.snum)
    (out : Table) : ∃ s, run float ⟨none, noInd, out⟩ b.lines = .ok s ∧
      s.out = putAll float b.cur (b.index "SMU".toList) (b.index "SML".toList) b.stations out ∧
      (b.stations.length = b.cur.snum → s.cur = none ∧ s.ind = noInd) := by
  have h1 : run float ⟨none, noInd, out⟩ b.lines = .ok
      (if (0 : ℤ) + b.stations.length = b.cur.snum then
        ⟨none, noInd, putAll float b.cur (b.index "SMU".toList) (b.index "SML".toList) b.stations out⟩
      else ⟨some (b.cur, 0 + b.stations.length), [("SMU".toList, b.index "SMU".toList), ("SML".toList, b.index "SML".toList)],
        putAll float b.cur (b.index "SMU".toList) (b.index "SML".toList) b.stations out⟩) := by
    unfold Block.lines
    rw [run, step]
    simp only [date_ok hb]
    rw [run_append]
    have := idx_ok (float := float) b.cur out b.idx fillVal fillVal hb.idx
    unfold noInd
    rw [this]
    simp only [Except.bind]
    rw [index_eq, index_eq, stations_ok _ _ _ _ _ _ hb.stations hne (by omega)]
    rfl
  refine ⟨_, h1, ?_, ?_⟩
  · split <;> rfl
  · intro h
    rw [if_pos (by omega)]
    exact ⟨rfl, rfl⟩

/-- A table after one row: the value of each column. -/
theorem put_eq (float : Conv) (c : Cur) (u v : ℤ) (l : Name) (t : Table) (k : Name) (x : Val)
    (h : (rowOf float c u v l).filter (fun p => p.1 == k) = [(k, x)]) : put (rowOf float c u v l) t k = t k ++ [x] := by
  have key : ∀ (r : List (Name × Val)) (t : Table), put r t k = t k ++ (r.filter (fun p => p.1 == k)).map Prod.snd := by
    intro r
    induction r with
    | nil => intro t; simp [put]
    | cons p r ih =>
      intro t
      obtain ⟨a, y⟩ := p
      rw [put, ih]
      by_cases ha : k = a
      · subst ha; simp
      · rw [if_neg ha, List.filter_cons_of_neg (by simpa using fun h => ha h.symm)]
  rw [key, h]
  rfl

theorem putAll_eq (float : Conv) (c : Cur) (u v : ℤ) (k : Name) (f : Name → Val)
    (h : ∀ l, (rowOf float c u v l).filter (fun p => p.1 == k) = [(k, f l)]) (ls : List Name) (t : Table) :
    putAll float c u v ls t k = t k ++ ls.map f := by
  unfold putAll
  induction ls generalizing t with
  | nil => simp
  | cons l ls ih =>
    rw [List.foldl_cons, ih, put_eq float c u v l t k (f l) (h l)]
    simp

/-- A column of the table after all blocks. -/
def Col (float : Conv) (k : Name) (f : Block → Name → Val) : Prop :=
  ∀ b l, (rowOf float b.cur (b.index "SMU".toList) (b.index "SML".toList) l).filter (fun p => p.1 == k) = [(k, f b l)]

theorem blocks_ok {float : Conv} : ∀ (bs : List Block) (out : Table),
    (∀ b ∈ bs, b.Fine float ∧ b.stations ≠ [] ∧ b.stations.length = b.cur.snum) →
    ∃ out', run float ⟨none, noInd, out⟩ (bs.flatMap Block.lines) = .ok ⟨none, noInd, out'⟩ ∧
      ∀ k f, Col float k f → out' k = out k ++ rows bs f
  | [], out, _ => ⟨out, rfl, fun k f _ => by simp [rows]⟩
  | b :: bs, out, h => by
    obtain ⟨h1, h2, h3⟩ := h b (List.mem_cons_self ..)
    obtain ⟨⟨cu, ind, o⟩, g1, g2, g3⟩ := block_ok h1 h2 (by omega) out
    obtain ⟨rfl, rfl⟩ := g3 h3
    obtain ⟨out', e1, e2⟩ := blocks_ok bs o fun x hx => h x (List.mem_cons_of_mem _ hx)
    refine ⟨out', ?_, ?_⟩
    · rw [List.flatMap_cons, run_append, g1]
      exact e1
    · intro k f hf
      simp only at g2
      rw [e2 k f hf, g2, putAll_eq float _ _ _ k (f b) (hf b)]
      unfold rows
      rw [List.flatMap_cons, List.append_assoc]

/-- The reading of complete blocks followed by a block that may have fewer stations than it says. -/
theorem blocks_last {float : Conv} (bs : List Block) (last : Option Block) (out : Table)
    (h : ∀ b ∈ bs, b.Fine float ∧ b.stations ≠ [] ∧ b.stations.length = b.cur.snum)
    (hl : ∀ b ∈ last, b.Fine float ∧ b.stations ≠ [] ∧ b.stations.length ≤ b.cur.snum) :
    ∃ s, run float ⟨none, noInd, out⟩ ((bs ++ last.toList).flatMap Block.lines) = .ok s ∧
      ∀ k f, Col float k f → s.out k = out k ++ rows (bs ++ last.toList) f := by
  obtain ⟨out', e1, e2⟩ := blocks_ok bs out h
  cases last with
  | none => exact ⟨_, by simpa using e1, by simpa using e2⟩
  | some b =>
    obtain ⟨h1, h2, h3⟩ := hl b rfl
    obtain ⟨s, g1, g2, -⟩ := block_ok h1 h2 h3 out'
    refine ⟨s, ?_, ?_⟩
    · rw [List.flatMap_append, run_append, e1]
      simpa [Except.bind] using g1
    · intro k f hf
      rw [g2, putAll_eq float _ _ _ k (f b) (hf b), e2 k f hf]
      simp [rows]

theorem header_eq (hd : List Name) (r : Name) (ls : List Name) (hh : ∀ l ∈ hd, contains rule l = false)
    (hr : contains rule r = true) : header (hd ++ r :: ls) = (hd ++ [r], some ls) := by
  induction hd with
  | nil => rw [List.nil_append, header, if_pos hr]; rfl
  | cons l hd ih =>
    rw [List.cons_append, header, if_neg (by simp [hh l (List.mem_cons_self ..)]),
      ih fun x hx => hh x (List.mem_cons_of_mem _ hx)]
    rfl

theorem unfill_num (x : F) : unfill (.num x) = .num (clean x) := by
  unfold clean
  cases x with
  | none => simp [unfill]
  | some x =>
    simp only [unfill, fillVal, Option.some.injEq]
    push_cast
    split <;> rfl

theorem rows_unfill (bs : List Block) (f : Block → Name → F) :
    (rows bs fun b l => .num (f b l)).map unfill = rows bs fun b l => .num (clean (f b l)) := by
  unfold rows
  rw [List.map_flatMap]
  simp only [List.map_map, Function.comp_def, unfill_num]

theorem time_eq (c : Cur) :
    c.time = midnight c.y c.m c.d + ((c.hh * 60 + c.mi) * 60 + c.s) * 1000000 := by
  unfold Cur.time midnight
  rw [stamp_eq]
  push_cast
  ring

theorem load_lists {float : Conv} (hd : List Name) (r : Name) (bs : List Block) (last : Option Block)
    (hh : ∀ l ∈ hd, contains rule l = false) (hr : contains rule r = true)
    (h : ∀ b ∈ bs, b.Fine float ∧ b.stations ≠ [] ∧ b.stations.length = b.cur.snum)
    (hl : ∀ b ∈ last, b.Fine float ∧ b.stations ≠ [] ∧ b.stations.length ≤ b.cur.snum) :
    ∃ t, load float (hd ++ r :: (bs ++ last.toList).flatMap Block.lines) = .ok (hd ++ [r], some t) ∧
      Lists float (bs ++ last.toList) t := by
  obtain ⟨s, e1, e2⟩ := blocks_last bs last (fun _ => []) h hl
  refine ⟨fun k => if nanKeys.contains k then (s.out k).map unfill else s.out k, ?_, ?_⟩
  · unfold load
    rw [header_eq hd r _ hh hr]
    simp only
    rw [e1]
  · have plain : ∀ k f, nanKeys.contains k = false → Col float k f →
        (if nanKeys.contains k then (s.out k).map unfill else s.out k) = rows (bs ++ last.toList) f := by
      intro k f hk hf
      rw [hk, e2 k f hf]
      simp
    have nan : ∀ k (f : Block → Name → F), nanKeys.contains k = true → Col float k (fun b l => .num (f b l)) →
        (if nanKeys.contains k then (s.out k).map unfill else s.out k) =
          rows (bs ++ last.toList) fun b l => .num (clean (f b l)) := by
      intro k f hk hf
      rw [hk, e2 k _ hf]
      simp only [if_true, List.nil_append, rows_unfill]
    refine ⟨plain _ _ (by decide) fun b l => rfl, plain _ _ (by decide) fun b l => rfl, plain _ _ (by decide) fun b l => rfl,
      plain _ _ (by decide) fun b l => rfl, plain _ _ (by decide) fun b l => rfl, plain _ _ (by decide) fun b l => rfl,
      ?_, plain _ _ (by decide) fun b l => rfl, plain _ _ (by decide) fun b l => rfl, plain _ _ (by decide) fun b l => rfl,
      plain _ _ (by decide) fun b l => rfl, nan _ (fun _ l => num float l 1) (by decide) fun b l => rfl,
      nan _ (fun _ l => num float l 2) (by decide) fun b l => rfl,
      nan _ (fun _ l => num float l 3) (by decide) fun b l => rfl, nan _ (fun _ l => num float l 4) (by decide) fun b l => rfl,
      plain _ _ (by decide) fun b l => rfl, nan _ (fun _ l => num float l 6) (by decide) fun b l => rfl,
      nan _ (fun _ l => num float l 7) (by decide) fun b l => rfl⟩
    simp only [← time_eq]
    exact plain _ _ (by decide) fun b l => rfl

/-! ### the properties -/

/-- C58 for blocks with stations: one row per station, in file order. -/
theorem C58_rows_partial {float : Conv} (hd : List Name) (r : Name) (bs : List Block)
    (hh : ∀ l ∈ hd, contains rule l = false) (hr : contains rule r = true)
    (h : ∀ b ∈ bs, b.Fine float ∧ b.stations ≠ [] ∧ b.stations.length = b.cur.snum) :
    ∃ t, load float (hd ++ r :: bs.flatMap Block.lines) = .ok (hd ++ [r], some t) ∧ Lists float bs t := by
  have := load_lists hd r bs none hh hr h (by simp)
  simpa using this

/-- Without the line that ends the header there is no data, and no error. -/
theorem C58_no_header_end {float : Conv} (hd : List Name) (hh : ∀ l ∈ hd, contains rule l = false) :
    load float hd = .ok (hd, none) := by
  have : header hd = (hd, none) := by
    induction hd with
    | nil => rfl
    | cons l hd ih =>
      rw [header, if_neg (by simp [hh l (List.mem_cons_self ..)]), ih fun x hx => hh x (List.mem_cons_of_mem _ hx)]
  unfold load
  rw [this]

/-- A line with fewer than eight texts that is not an index line is no station line. -/
theorem short_cols {float : Conv} {ws : List Name} (h : ws.length < 8) : ∃ e, stationCols float ws = .error e := by
  unfold stationCols
  cases h0 : ws[0]? with
  | none => exact ⟨_, rfl⟩
  | some id =>
    have h7 : word float ws 7 = .error .indexError := by
      unfold word
      rw [List.getElem?_eq_none (by omega)]
    simp only [bind, Except.bind, h7]
    repeat (first | exact ⟨_, rfl⟩ | split)

theorem short_step {float : Conv} (c : Cur) (n : ℤ) (ind : List (Name × ℤ)) (out : Table) {l : Name} (h : (words l).length < 8)
    (h2 : (words l).length ≠ 2) : ∃ e, step float ⟨some (c, n), ind, out⟩ l = .error e := by
  obtain ⟨e, he⟩ := short_cols (float := float) h
  rw [step]
  simp only
  split
  · rename_i hw
    rw [hw] at h2
    exact absurd rfl h2
  · unfold stationLine
    split
    · rw [he]; exact ⟨_, rfl⟩
    · exact ⟨_, rfl⟩

/-- C58 is false when a block without stations is followed by another block: the file is not read at all. -/
theorem C58_no_stations_refuted {float : Conv} (hd : List Name) (r : Name) (bs : List Block) (b next : Block) (rest : List Name)
    (hh : ∀ l ∈ hd, contains rule l = false) (hr : contains rule r = true)
    (h : ∀ b ∈ bs, b.Fine float ∧ b.stations ≠ [] ∧ b.stations.length = b.cur.snum)
    (hb : b.Fine float) (h0 : b.stations = []) (hn : next.Fine float) :
    ∃ e, load float (hd ++ r :: (bs.flatMap Block.lines ++ (b.lines ++ (next.lines ++ rest)))) = .error e := by
  obtain ⟨out', e1, -⟩ := blocks_ok bs (fun _ => []) h
  have hs : ∃ e, run float ⟨none, noInd, out'⟩ (b.lines ++ (next.lines ++ rest)) = .error e := by
    unfold Block.lines
    rw [h0, List.append_nil, List.cons_append, run, step]
    simp only [date_ok hb]
    rw [run_append]
    have := idx_ok (float := float) b.cur out' b.idx fillVal fillVal hb.idx
    unfold noInd
    rw [this]
    simp only [Except.bind]
    obtain ⟨y, m, d, hh, mi, s, n, hw, -⟩ := hn.date
    rw [List.cons_append, run]
    obtain ⟨e, he⟩ := short_step (float := float) b.cur 0
      [("SMU".toList, idxFrom "SMU".toList fillVal b.idx), ("SML".toList, idxFrom "SML".toList fillVal b.idx)] out'
      (l := next.date) (by rw [hw]; simp) (by rw [hw]; simp)
    rw [he]
    exact ⟨_, rfl⟩
  obtain ⟨e, he⟩ := hs
  refine ⟨e, ?_⟩
  unfold load
  rw [header_eq hd r _ hh hr]
  simp only
  rw [run_append, e1]
  simp only [Except.bind]
  rw [he]

/-- A blank line at the end of the file raises IndexError. -/
theorem C58_blank_end_refuted {float : Conv} (hd : List Name) (r : Name) (bs : List Block) (blank : Name) (rest : List Name)
    (hh : ∀ l ∈ hd, contains rule l = false) (hr : contains rule r = true)
    (h : ∀ b ∈ bs, b.Fine float ∧ b.stations ≠ [] ∧ b.stations.length = b.cur.snum) (hb : words blank = []) :
    load float (hd ++ r :: (bs.flatMap Block.lines ++ blank :: rest)) = .error .indexError := by
  obtain ⟨out', e1, -⟩ := blocks_ok bs (fun _ => []) h
  unfold load
  rw [header_eq hd r _ hh hr]
  simp only
  rw [run_append, e1]
  simp only [Except.bind]
  rw [run, step]
  simp only [dateLine, hb, readInts]

/-- The days of a month of the Gregorian calendar. -/
def monthDays (y m : ℤ) : ℤ :=
  if m = 2 then (if y % 4 = 0 ∧ (y % 100 ≠ 0 ∨ y % 400 = 0) then 29 else 28)
  else if m = 4 ∨ m = 6 ∨ m = 9 ∨ m = 11 then 30 else 31

/-- A second between the years 1 and 9999. -/
structure RealTime (y m d hh mi s : ℤ) : Prop where
  year : 1 ≤ y ∧ y ≤ 9999
  month : 1 ≤ m ∧ m ≤ 12
  day : 1 ≤ d ∧ d ≤ monthDays y m
  hour : 0 ≤ hh ∧ hh ≤ 23
  minute : 0 ≤ mi ∧ mi ≤ 59
  second : 0 ≤ s ∧ s ≤ 59

theorem valid_days {y m d : ℕ} (h : Valid y m d) : (d : ℤ) ≤ monthDays y m := by
  obtain ⟨-, -, h3, h4, -, h6⟩ := h
  unfold monthDays
  have hl : leap y = true ↔ ((y : ℤ) % 4 = 0 ∧ ((y : ℤ) % 100 ≠ 0 ∨ (y : ℤ) % 400 = 0)) := by
    unfold leap
    simp only [Bool.and_eq_true, Bool.or_eq_true, decide_eq_true_eq, beq_iff_eq, bne_iff_ne, ne_eq]
    omega
  simp only [← hl]
  unfold months at h6
  have hm : m = 1 ∨ m = 2 ∨ m = 3 ∨ m = 4 ∨ m = 5 ∨ m = 6 ∨ m = 7 ∨ m = 8 ∨ m = 9 ∨ m = 10 ∨ m = 11 ∨ m = 12 := by omega
  rcases hm with rfl | rfl | rfl | rfl | rfl | rfl | rfl | rfl | rfl | rfl | rfl | rfl <;>
    cases hly : leap y <;> simp [hly] at h6 ⊢ <;> omega

/-- C58: a date line with a time that does not exist raises ValueError. -/
theorem C58_bad_time {float : Conv} (hd : List Name) (r : Name) (bs : List Block) (date : Name) (rest : List Name)
    (hh : ∀ l ∈ hd, contains rule l = false) (hr : contains rule r = true)
    (h : ∀ b ∈ bs, b.Fine float ∧ b.stations ≠ [] ∧ b.stations.length = b.cur.snum)
    (w : List Name) (z : List ℤ) (hw : words date = w) (hz : List.Forall₂ (fun t v => readInt t = .ok v) w z)
    (y m d ho mi s : ℤ) (more : List ℤ) (hmore : z = y :: m :: d :: ho :: mi :: s :: more)
    (hbad : ¬ RealTime y m d ho mi s) :
    load float (hd ++ r :: (bs.flatMap Block.lines ++ date :: rest)) = .error .valueError := by
  obtain ⟨out', e1, -⟩ := blocks_ok bs (fun _ => []) h
  have hi : readInts w = .ok z := by
    clear hw hmore
    induction hz with
    | nil => rfl
    | cons a _ ih => rw [readInts, a]; simp only [ih]
  unfold load
  rw [header_eq hd r _ hh hr]
  simp only
  rw [run_append, e1]
  simp only [Except.bind]
  rw [run, step]
  simp only [dateLine, hw, hi, hmore]
  unfold mkCur
  rw [if_neg]
  rintro ⟨h1, h2, h3, h4, h5, h6, h7, h8, h9, h10⟩
  have hv := h7
  obtain ⟨g1, g2, g3, g4, g5, -⟩ := h7
  have := valid_days hv
  rw [Int.toNat_of_nonneg h1, Int.toNat_of_nonneg h2, Int.toNat_of_nonneg h3] at this
  exact hbad ⟨by omega, by omega, by omega, by omega, by omega, by omega⟩

/-- Hour 24 does not exist, nor does 29 February 2001. -/
example : ¬ RealTime 2000 5 5 24 0 0 ∧ ¬ RealTime 2001 2 29 0 0 0 ∧ RealTime 2000 2 29 23 59 59 :=
  ⟨fun h => absurd h.hour.2 (by decide), fun h => absurd h.day.2 (by decide), by constructor <;> decide⟩

/-- C86 is false: a file cut after some, but not all, of the stations of its last block is read without an error, and the
rows of that block say more stations than there are rows. -/
theorem C86_truncated_refuted {float : Conv} (hd : List Name) (r : Name) (bs : List Block) (last : Block)
    (hh : ∀ l ∈ hd, contains rule l = false) (hr : contains rule r = true)
    (h : ∀ b ∈ bs, b.Fine float ∧ b.stations ≠ [] ∧ b.stations.length = b.cur.snum)
    (hl : last.Fine float) (h0 : last.stations ≠ []) (hn : last.stations.length < last.cur.snum) :
    ∃ t, load float (hd ++ r :: (bs ++ [last]).flatMap Block.lines) = .ok (hd ++ [r], some t) ∧
      Lists float (bs ++ [last]) t := by
  refine load_lists hd r bs (some last) hh hr h ?_
  intro b hb
  obtain rfl : last = b := by simpa using hb
  exact ⟨hl, h0, hn.le⟩

/-- C87 for the columns other than the latitude: whatever the file, no fill value is left. -/
theorem C87_fill_partial {float : Conv} (lines h : List Name) (t : Table) (hl : load float lines = .ok (h, some t)) (k : Name)
    (hk : k = "BN".toList ∨ k = "BE".toList ∨ k = "BZ".toList ∨ k = "MLT".toList ∨ k = "DEC".toList ∨ k = "SZA".toList) :
    Val.num (some 999999) ∉ t k := by
  unfold load at hl
  split at hl
  · simp at hl
  · split at hl
    · simp at hl
    · rename_i s hs
      simp only [Except.ok.injEq, Prod.mk.injEq, Option.some.injEq] at hl
      obtain ⟨-, rfl⟩ := hl
      have hm : nanKeys.contains k = true := by
        rcases hk with rfl | rfl | rfl | rfl | rfl | rfl <;> decide
      simp only [hm, if_true]
      intro hc
      obtain ⟨v, -, hv⟩ := List.mem_map.1 hc
      cases v with
      | num x =>
        rw [unfill_num] at hv
        simp only [Val.num.injEq] at hv
        unfold clean at hv
        split at hv
        · simp at hv
        · rename_i hx; exact hx hv
      | int z => simp [unfill] at hv
      | txt z => simp [unfill] at hv
      | time z => simp [unfill] at hv

/-- C87 is false for the latitude: a fill value stays there as a number. -/
theorem C87_latitude_refuted {float : Conv} (hd : List Name) (r : Name) (bs : List Block)
    (hh : ∀ l ∈ hd, contains rule l = false) (hr : contains rule r = true)
    (h : ∀ b ∈ bs, b.Fine float ∧ b.stations ≠ [] ∧ b.stations.length = b.cur.snum) {b : Block} (hb : b ∈ bs) {l : Name}
    (hl : l ∈ b.stations) (hf : num float l 5 = some 999999) :
    ∃ t, load float (hd ++ r :: bs.flatMap Block.lines) = .ok (hd ++ [r], some t) ∧
      Val.num (some 999999) ∈ t "MLAT".toList := by
  obtain ⟨t, h1, h2⟩ := C58_rows_partial hd r bs hh hr h
  refine ⟨t, h1, ?_⟩
  rw [h2.mlat]
  unfold rows
  exact List.mem_flatMap.2 ⟨b, hb, List.mem_map.2 ⟨l, hl, by simp only [hf]⟩⟩

/-! ### an example -/

/-- A block of 5 May 2000, 13:45:00, with one index and two stations. -/
def exBlock : Block :=
  ⟨"2000 5 5 13 45 0 2\n".toList, ⟨2000, 5, 5, 13, 45, 0, 2⟩, [("SML\t-120\n".toList, "SML".toList, -120)],
    ["THL 10 -3 999999 14 85 4 60\n".toList, "NAQ 1 2 3 4 999999 6 7\n".toList]⟩

theorem exBlock_fine : exBlock.Fine wholes := by
  have whole : ∀ n : Name, (∃ k, readInt n = .ok k) → ∃ x, wholes n = some x := by
    rintro n ⟨k, hk⟩
    exact ⟨_, by unfold wholes; rw [hk]⟩
  refine ⟨⟨"2000".toList, "5".toList, "5".toList, "13".toList, "45".toList, "0".toList, "2".toList, by decide, rfl, rfl, rfl,
    rfl, rfl, rfl, rfl⟩, by decide, by decide, by decide, by decide, ?_, ?_⟩
  · intro p hp
    obtain rfl := List.mem_singleton.1 hp
    exact ⟨.inl rfl, "-120".toList, by decide, rfl⟩
  · have texts : ∀ l ∈ exBlock.stations, 8 ≤ (words l).length ∧ ∀ i ∈ [1, 2, 3, 4, 5, 6, 7],
        (readInt (text l i)).toBool = true := by decide
    intro l hl
    obtain ⟨h1, h2⟩ := texts l hl
    refine ⟨h1, fun i hi1 hi2 => whole _ ?_⟩
    have := h2 i (by simp; omega)
    cases hr : readInt (text l i) with
    | ok k => exact ⟨k, rfl⟩
    | error e => rw [hr] at this; exact absurd this (by simp [Except.toBool])

/-- The hypotheses of C58 and C87 are met by two such blocks. -/
example : ∃ t, load wholes ("File description\n".toList :: (rule ++ "\n".toList) :: [exBlock, exBlock].flatMap Block.lines) =
    .ok (["File description\n".toList, rule ++ "\n".toList], some t) ∧ Lists wholes [exBlock, exBlock] t := by
  refine C58_rows_partial ["File description\n".toList] (rule ++ "\n".toList) [exBlock, exBlock] ?_ (by decide) ?_
  · intro l hl
    obtain rfl := List.mem_singleton.1 hl
    decide
  · intro b hb
    obtain rfl : b = exBlock := by simpa using hb
    exact ⟨exBlock_fine, by decide, rfl⟩

/-- Its SML is the one given, its SMU the fill value, its BZ has a fill value and its latitude another. -/
example : exBlock.index "SML".toList = -120 ∧ exBlock.index "SMU".toList = 999999 ∧
    num wholes "THL 10 -3 999999 14 85 4 60\n".toList 3 = some 999999 ∧
    num wholes "NAQ 1 2 3 4 999999 6 7\n".toList 5 = some 999999 := by
  have key : ∀ n : Name, readInt n = .ok 999999 → (wholes n).getD none = some 999999 := by
    intro n hn
    unfold wholes
    rw [hn]
    norm_num
  exact ⟨by decide, by decide, key _ (by decide), key _ (by decide)⟩

end Ocb.Smag
