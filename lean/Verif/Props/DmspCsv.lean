import Verif.Model.DmspCsv
import Verif.Props.FetchNames
import Verif.Props.DmspFiles

/-!
# Property C209: the passes are taken from the CSV files by the names of the columns

Vocabulary: `Table` says what a CSV file looks like, `Column` which value a row has under a name, `FromRow` that a pass has
the values of a row.
-/

set_option autoImplicit false

namespace Ocb.DmspCsv

open Ocb.Files (Name part split split_cons)
open Ocb.Dmsp
open Ocb.Fetch (sections csvTail splitPath_tail)

/-! ### What a file looks like -/

/-- Texts with commas between -/
def row (l : List Name) : Name := List.intercalate [','] l

/-- A line below the header: cells or a comment -/
def below : List Name ⊕ Name → Name
  | .inl r => row r ++ ['\n']
  | .inr c => '#' :: c

/-- A CSV file with comments in front, a header, and rows of cells, with comments between them -/
structure Table (lines hd : List Name) (rows : List (List Name)) : Prop where
  form : ∃ (cs : List Name) (rest : List (List Name ⊕ Name)),
    lines = cs.map ('#' :: ·) ++ (row hd ++ ['\n']) :: rest.map below ∧ rest.filterMap Sum.getLeft? = rows
  two : 2 ≤ hd.length
  names : ∀ w ∈ hd, ∀ c ∈ w, c ≠ ',' ∧ c ≠ '\n'
  plain : (row hd).head? ≠ some '#'
  cells : ∀ r ∈ rows, r.length = hd.length ∧ ∀ w ∈ r, ∀ c ∈ w, c ≠ ',' ∧ c ≠ '\n' ∧ c ≠ '#'

/-- The same with rows of a width that need not be that of the header -/
structure Sheet (lines hd : List Name) (w : ℕ) (rows : List (List Name)) : Prop where
  form : ∃ (cs : List Name) (rest : List (List Name ⊕ Name)),
    lines = cs.map ('#' :: ·) ++ (row hd ++ ['\n']) :: rest.map below ∧ rest.filterMap Sum.getLeft? = rows
  two : 2 ≤ hd.length
  wide : 2 ≤ w
  names : ∀ w ∈ hd, ∀ c ∈ w, c ≠ ',' ∧ c ≠ '\n'
  plain : (row hd).head? ≠ some '#'
  cells : ∀ r ∈ rows, r.length = w ∧ ∀ w ∈ r, ∀ c ∈ w, c ≠ ',' ∧ c ≠ '\n' ∧ c ≠ '#'

theorem Table.sheet {lines hd : List Name} {rows : List (List Name)} (h : Table lines hd rows) : Sheet lines hd hd.length rows :=
  ⟨h.form, h.two, h.two, h.names, h.plain, h.cells⟩

/-- The row has the text `w` in the first column of the name. -/
def Column (hd : List Name) (r : List Name) (name w : Name) : Prop :=
  ∃ j : ℕ, hd[j]? = some name ∧ r[j]? = some w ∧ ∀ i < j, hd[i]? ≠ some name

/-- The row has the number `v` in the first column of the name. -/
def Has (num : Name → Option ℝ) (hd r : List Name) (name : Name) (v : ℝ) : Prop := ∃ w, Column hd r name w ∧ num w = some v

/-- The names of the columns that are used -/
def needed : List Name :=
  ["hemisphere".toList, "FOM".toList, "UTSec PO1".toList, "UTSec PO2".toList, "UTSec EQ1".toList, "UTSec EQ2".toList,
    "SC_GEOCENTRIC_LAT PO1".toList, "SC_GEOCENTRIC_LAT PO2".toList, "SC_GEOCENTRIC_LAT EQ1".toList,
    "SC_GEOCENTRIC_LAT EQ2".toList, "SC_GEOCENTRIC_LON PO1".toList, "SC_GEOCENTRIC_LON PO2".toList,
    "SC_GEOCENTRIC_LON EQ1".toList, "SC_GEOCENTRIC_LON EQ2".toList]

/-- The pass has the values of the row. -/
structure FromRow (num : Name → Option ℝ) (hd r : List Name) (p : Pass) : Prop where
  hem : Has num hd r "hemisphere".toList p.hem
  fom : Has num hd r "FOM".toList p.fom
  utPo1 : Has num hd r "UTSec PO1".toList (p.ut .po).1
  utPo2 : Has num hd r "UTSec PO2".toList (p.ut .po).2
  utEq1 : Has num hd r "UTSec EQ1".toList (p.ut .eq).1
  utEq2 : Has num hd r "UTSec EQ2".toList (p.ut .eq).2
  latPo1 : Has num hd r "SC_GEOCENTRIC_LAT PO1".toList (p.lat .po).1
  latPo2 : Has num hd r "SC_GEOCENTRIC_LAT PO2".toList (p.lat .po).2
  latEq1 : Has num hd r "SC_GEOCENTRIC_LAT EQ1".toList (p.lat .eq).1
  latEq2 : Has num hd r "SC_GEOCENTRIC_LAT EQ2".toList (p.lat .eq).2
  lonPo1 : Has num hd r "SC_GEOCENTRIC_LON PO1".toList (p.lon .po).1
  lonPo2 : Has num hd r "SC_GEOCENTRIC_LON PO2".toList (p.lon .po).2
  lonEq1 : Has num hd r "SC_GEOCENTRIC_LON EQ1".toList (p.lon .eq).1
  lonEq2 : Has num hd r "SC_GEOCENTRIC_LON EQ2".toList (p.lon .eq).2

/-- The name of a file in the documented form: the texts of the satellite and of the date -/
def NamedCsv (n sat date : Name) : Prop :=
  ∃ dir desc ver rest, n = dir ++ '/' :: ("dmsp-f".toList ++ csvTail sat desc date ver rest) ∧
    '/' ∉ csvTail sat desc date ver rest ∧ ¬ "dmsp-f".toList <:+: csvTail sat desc date ver rest ∧
    '_' ∉ sat ∧ '_' ∉ desc ∧ '_' ∉ date ∧ '_' ∉ ver

/-! ### Lemmas -/

theorem sections_named {n sat date : Name} (h : NamedCsv n sat date) :
    part (sections n) 0 = .ok sat ∧ part (sections n) 3 = .ok date := by
  obtain ⟨dir, desc, ver, rest, rfl, h1, h2, h3, h4, h5, h6⟩ := h
  have hs : sections (dir ++ '/' :: ("dmsp-f".toList ++ csvTail sat desc date ver rest)) =
      sat :: "ssj".toList :: desc :: date :: ver :: split rest := by
    unfold sections
    rw [splitPath_tail _ _ (by
      rw [List.mem_append, not_or]
      exact ⟨by decide, h1⟩)]
    obtain ⟨pre, -, e⟩ := splitSub_last (csvTail sat desc date ver rest) [] 0 (by simp)
    rw [List.nil_append] at e
    rw [e, splitSub_none _ _ h2, List.getLastD_eq_getLast?, List.getLast?_append]
    simp only [List.getLast?_singleton, Option.some_or, Option.getD_some]
    unfold csvTail
    rw [split_cons _ _ h3, split_cons _ _ (by decide), split_cons _ _ h4, split_cons _ _ h5, split_cons _ _ h6]
  rw [hs]
  exact ⟨rfl, rfl⟩

theorem commas_plain (p : Name) (hp : ',' ∉ p) : commas p = [p] := by
  induction p with
  | nil => rfl
  | cons a p ih =>
    rw [List.mem_cons, not_or] at hp
    rw [commas, if_neg (fun h => hp.1 h.symm), ih hp.2]

theorem commas_cons (p q : Name) (hp : ',' ∉ p) : commas (p ++ ',' :: q) = p :: commas q := by
  induction p with
  | nil => simp [commas]
  | cons a p ih =>
    rw [List.mem_cons, not_or] at hp
    rw [List.cons_append, commas, if_neg (fun h => hp.1 h.symm), ih hp.2]

theorem row_cons (w : Name) {l : List Name} (h : l ≠ []) : row (w :: l) = w ++ ',' :: row l := by
  cases l with
  | nil => exact (h rfl).elim
  | cons x xs => simp [row, List.intercalate, List.intersperse]

theorem row_one (w : Name) : row [w] = w := by simp [row, List.intercalate]

theorem commas_row : ∀ l : List Name, l ≠ [] → (∀ p ∈ l, ',' ∉ p) → commas (row l) = l
  | [], h, _ => (h rfl).elim
  | [w], _, h => by rw [row_one, commas_plain w (h w (by simp))]
  | w :: x :: l, _, h => by
    rw [row_cons w (by simp), commas_cons w _ (h w (by simp)), commas_row (x :: l) (by simp) fun p hp => h p (by simp [hp])]

theorem row_chars {P : Char → Prop} (hc : P ',') : ∀ l : List Name, (∀ w ∈ l, ∀ c ∈ w, P c) → ∀ c ∈ row l, P c
  | [], _ => by intro c hc; simp [row, List.intercalate] at hc
  | [w], h => by rw [row_one]; exact h w (by simp)
  | w :: x :: l, h => by
    intro c hm
    rw [row_cons w (by simp), List.mem_append, List.mem_cons] at hm
    rcases hm with hm | rfl | hm
    · exact h w (by simp) c hm
    · exact hc
    · exact row_chars hc (x :: l) (fun w hw => h w (by simp [hw])) c hm

theorem row_ne {l : List Name} (h : 2 ≤ l.length) : row l ≠ [] := by
  match l, h with
  | w :: x :: l, _ =>
    rw [row_cons w (by simp)]
    simp

theorem takeWhile_line {p : Char → Bool} {l : Name} (h : ∀ c ∈ l, p c = true) (hn : p '\n' = false) :
    (l ++ ['\n']).takeWhile p = l := by
  rw [List.takeWhile_append_of_pos h]
  simp [hn]

theorem skipped_table {cs : List Name} {hd : List Name} (hne : row hd ≠ []) (hp : (row hd).head? ≠ some '#') (rest : List Name) :
    skipped (cs.map ('#' :: ·) ++ (row hd ++ ['\n']) :: rest) = cs.length := by
  unfold skipped
  rw [List.takeWhile_append_of_pos (by
    intro l hl
    obtain ⟨c, -, rfl⟩ := List.mem_map.1 hl
    simp), List.takeWhile_cons, if_neg]
  · simp
  · rw [List.head?_append_of_ne_nil _ hne]
    simpa using hp

theorem header_table {lines hd : List Name} {w : ℕ} {rows : List (List Name)} (h : Sheet lines hd w rows) : header lines = hd := by
  obtain ⟨cs, rest, e, -⟩ := h.form
  have hne := row_ne h.two
  unfold header
  rw [e, skipped_table hne h.plain, List.drop_left' (by simp)]
  simp only [List.headD_cons]
  rw [takeWhile_line _ (by decide)]
  · exact commas_row hd (by intro e; have := h.two; simp [e] at this) fun p hp hc => (h.names p hp _ hc).1 rfl
  · intro c hc
    have := row_chars (P := fun c => c ≠ '\n') (by decide) hd (fun w hw c hc => (h.names w hw c hc).2) c hc
    simpa using this

theorem data_table {lines hd : List Name} {w : ℕ} {rows : List (List Name)} (h : Sheet lines hd w rows) :
    dataCells (lines.drop (skipped lines + 1)) = rows := by
  obtain ⟨cs, rest, e, hr⟩ := h.form
  have hne := row_ne h.two
  have e2 : lines.drop (skipped lines + 1) = rest.map below := by
    rw [e, skipped_table hne h.plain, ← List.drop_drop, List.drop_left' (by simp)]
    rfl
  rw [e2]
  have hc := h.cells
  have h2 := h.wide
  clear e e2 h
  subst hr
  induction rest with
  | nil => rfl
  | cons x rest ih =>
    cases x with
    | inl r =>
      have hr := hc r (by simp)
      have ih := ih fun r' hr' => hc r' (by
        rw [List.filterMap_cons]
        simp only [Sum.getLeft?_inl]
        exact List.mem_cons_of_mem _ hr')
      have e3 : (below (.inl r)).takeWhile (fun c => decide (c ≠ '#' ∧ c ≠ '\n')) = row r := by
        refine takeWhile_line ?_ (by decide)
        intro c hm
        have := row_chars (P := fun c => c ≠ '#' ∧ c ≠ '\n') (by decide) r (fun w hw c hc' => ⟨(hr.2 w hw c hc').2.2,
          (hr.2 w hw c hc').2.1⟩) c hm
        simpa using this
      unfold dataCells at ih ⊢
      rw [List.map_cons, List.map_cons, e3, List.filter_cons, if_pos (by simpa using row_ne (by rw [hr.1]; exact h2)),
        List.map_cons, commas_row r (by intro e; rw [e] at hr; simp at hr; omega) fun p hp hm => (hr.2 p hp _ hm).1 rfl, ih,
        List.filterMap_cons]
      rfl
    | inr c =>
      have ih := ih fun r' hr' => hc r' (by
        rw [List.filterMap_cons]
        exact hr')
      have e3 : (below (.inr c)).takeWhile (fun c => decide (c ≠ '#' ∧ c ≠ '\n')) = [] := by
        unfold below
        rw [List.takeWhile_cons, if_neg (by simp)]
      unfold dataCells at ih ⊢
      rw [List.map_cons, List.map_cons, e3, List.filter_cons, if_neg (by simp), ih, List.filterMap_cons]
      rfl

/-- The numbers of the cells -/
noncomputable def nums (num : Name → Option ℝ) (r : List Name) : List ℝ := r.map fun w => (num w).getD 0

theorem loadtxt_table {num : Name → Option ℝ} {lines hd : List Name} {w : ℕ} {rows : List (List Name)} (h : Sheet lines hd w rows)
    (hn : ∀ r ∈ rows, ∀ w ∈ r, num w ≠ none) : loadtxt num lines = .ok (rows.map (nums num)) := by
  unfold loadtxt
  simp only [data_table h]
  rw [if_pos]
  · refine Files.mapE_eq _ _ _ fun r hr => ?_
    refine Files.mapE_eq _ _ _ fun w hw => ?_
    obtain ⟨v, hv⟩ := Option.ne_none_iff_exists'.1 (hn r hr w hw)
    simp [hv, orValue]
  · rw [List.all_eq_true]
    intro r hr
    cases rows with
    | nil => cases hr
    | cons r0 rs =>
      simp only [List.headD_cons, beq_iff_eq]
      rw [(h.cells r hr).1, (h.cells r0 (by simp)).1]

theorem loadtxt_text {num : Name → Option ℝ} {lines hd : List Name} {rows : List (List Name)} (h : Table lines hd rows)
    (hn : ∃ r ∈ rows, ∃ w ∈ r, num w = none) : loadtxt num lines = .error .valueError := by
  obtain ⟨r, hr, w, hw, e⟩ := hn
  unfold loadtxt
  simp only [data_table h.sheet]
  have mapV : ∀ {α β : Type} (g : α → Except PyErr β) (l : List α), (∀ a ∈ l, (∃ b, g a = .ok b) ∨ g a = .error .valueError) →
      ((∃ b, mapE g l = .ok b) ∨ mapE g l = .error .valueError) ∧
        ((∃ a ∈ l, g a = .error .valueError) → mapE g l = .error .valueError) := by
    intro α β g l hl
    induction l with
    | nil => exact ⟨.inl ⟨[], rfl⟩, by simp⟩
    | cons a l ih =>
      obtain ⟨i1, i2⟩ := ih fun x hx => hl x (by simp [hx])
      rcases hl a (by simp) with ⟨b, hb⟩ | hb
      · constructor
        · rcases i1 with ⟨c, hc⟩ | hc
          · exact .inl ⟨b :: c, by simp [mapE, hb, hc]⟩
          · exact .inr (by simp [mapE, hb, hc])
        · rintro ⟨x, hx, hxe⟩
          rcases List.mem_cons.1 hx with rfl | hx
          · rw [hb] at hxe; cases hxe
          · simp [mapE, hb, i2 ⟨x, hx, hxe⟩]
      · exact ⟨.inr (by simp [mapE, hb]), fun _ => by simp [mapE, hb]⟩
  have inner : ∀ r : List Name, _ := fun r => mapV (fun w => orValue (num w)) r fun w _ => by
    cases hq : num w with
    | none => exact .inr rfl
    | some v => exact .inl ⟨v, rfl⟩
  split_ifs
  · exact (mapV _ rows fun r _ => (inner r).1).2 ⟨r, hr, (inner r).2 ⟨w, hw, by simp [e, orValue]⟩⟩
  · rfl

theorem index_ok {hd : List Name} {name : Name} (h : name ∈ hd) : index hd name = .ok (hd.idxOf name) := if_pos h

theorem has_index {num : Name → Option ℝ} {hd r : List Name} {name : Name} (h : name ∈ hd) (hl : r.length = hd.length)
    (hn : ∀ w ∈ r, num w ≠ none) : Has num hd r name (val (nums num r) (hd.idxOf name)) := by
  have hj : hd.idxOf name < hd.length := List.idxOf_lt_length_of_mem h
  have hj' : hd.idxOf name < r.length := hl ▸ hj
  refine ⟨r[hd.idxOf name], ⟨hd.idxOf name, ?_, List.getElem?_eq_getElem hj', ?_⟩, ?_⟩
  · rw [List.getElem?_eq_getElem hj, List.getElem_idxOf]
  · intro i hi hc
    have := List.idxOf_lt_length_iff.1 hj
    obtain ⟨hi', e⟩ := List.getElem?_eq_some_iff.1 hc
    have := List.not_of_lt_findIdx (p := (· == name)) (xs := hd) (i := i) hi
    simp [e] at this
  · obtain ⟨v, hv⟩ := Option.ne_none_iff_exists'.1 (hn _ (List.getElem_mem hj'))
    unfold val nums
    rw [hv, List.getD_eq_getElem?_getD, List.getElem?_map, List.getElem?_eq_getElem hj']
    simp [hv]

theorem places_ok {hd : List Name} {pre : Name} (h : ∀ b : Bd, colName pre b '1' ∈ hd ∧ colName pre b '2' ∈ hd) :
    ∃ g, places hd pre = .ok g ∧ ∀ b, g b = (hd.idxOf (colName pre b '1'), hd.idxOf (colName pre b '2')) := by
  unfold places
  rw [index_ok (h .po).1, index_ok (h .po).2, index_ok (h .eq).1, index_ok (h .eq).2]
  exact ⟨_, rfl, fun b => by cases b <;> rfl⟩

theorem toPasses_ok {num : Name → Option ℝ} {hd : List Name} {rows : List (List Name)} (hall : ∀ name ∈ needed, name ∈ hd)
    (hl : ∀ r ∈ rows, r.length = hd.length) (hn : ∀ r ∈ rows, ∀ w ∈ r, num w ≠ none) :
    ∃ ps, toPasses hd (rows.map (nums num)) = .ok ps ∧ List.Forall₂ (FromRow num hd) rows ps := by
  simp only [needed, List.mem_cons, List.not_mem_nil, or_false, forall_eq_or_imp, forall_eq] at hall
  obtain ⟨n1, n2, n3, n4, n5, n6, n7, n8, n9, n10, n11, n12, n13, n14⟩ := hall
  obtain ⟨ut, u1, u2⟩ := places_ok (hd := hd) (pre := "UTSec".toList) (fun b => by
    cases b
    · exact ⟨n3, n4⟩
    · exact ⟨n5, n6⟩)
  obtain ⟨lat, l1, l2⟩ := places_ok (hd := hd) (pre := "SC_GEOCENTRIC_LAT".toList) (fun b => by
    cases b
    · exact ⟨n7, n8⟩
    · exact ⟨n9, n10⟩)
  obtain ⟨lon, m1, m2⟩ := places_ok (hd := hd) (pre := "SC_GEOCENTRIC_LON".toList) (fun b => by
    cases b
    · exact ⟨n11, n12⟩
    · exact ⟨n13, n14⟩)
  unfold toPasses
  rw [u1, l1, m1, index_ok n1, index_ok n2]
  simp only [bind, Except.bind, pure, Except.pure]
  refine ⟨_, rfl, ?_⟩
  rw [List.map_map, List.forall₂_map_right_iff, List.forall₂_same]
  intro r hr
  have q : ∀ name ∈ hd, Has num hd r name (val (nums num r) (hd.idxOf name)) := fun name hname =>
    has_index hname (hl r hr) (hn r hr)
  simp only [Function.comp, u2, l2, m2]
  exact ⟨q _ n1, q _ n2, q _ n3, q _ n4, q _ n5, q _ n6, q _ n7, q _ n8, q _ n9, q _ n10, q _ n11, q _ n12, q _ n13, q _ n14⟩

theorem readCsv_named {env : Env} {num : Name → Option ℝ} {n sat ymd : Name} (hname : NamedCsv n sat ymd) {sc t : ℤ}
    (hs : env.int sat = some sc) (ht : env.date ymd = some t) (lines : List Name) :
    readCsv env num n lines = (loadtxt num lines).bind fun data =>
      if twoDim (header lines) data then
        (toPasses (header lines) data).bind fun rows => .ok ⟨sc, (t : ℝ) / 1000000, true, rows⟩
      else .ok ⟨sc, (t : ℝ) / 1000000, false, []⟩ := by
  obtain ⟨e1, e2⟩ := sections_named hname
  unfold readCsv
  simp only [e1, e2, hs, ht, orValue, bind, Except.bind, pure, Except.pure]

theorem twoDim_table {num : Name → Option ℝ} {lines hd : List Name} {rows : List (List Name)} (h : Table lines hd rows) :
    twoDim hd (rows.map (nums num)) = decide (2 ≤ rows.length) := by
  unfold twoDim
  rw [List.length_map]
  cases rows with
  | nil => simp
  | cons r rs =>
    have e : ((r :: rs).map (nums num)).headD [] = nums num r := rfl
    have e2 : (nums num r).length = hd.length := by rw [nums, List.length_map, (h.cells r (by simp)).1]
    rw [e, e2]
    have := h.two
    simp [this]

/-! ### C209 -/

/-- C209: the passes of a file with two or more rows of numbers have, in order, the values of the rows in the columns of
the documented names, wherever these are, and satellite and date are those of the name of the file. -/
theorem C209_read {env : Env} {num : Name → Option ℝ} {n sat ymd : Name} (hname : NamedCsv n sat ymd) {sc t : ℤ}
    (hs : env.int sat = some sc) (ht : env.date ymd = some t) {lines hd : List Name} {rows : List (List Name)}
    (h : Table lines hd rows) (hall : ∀ name ∈ needed, name ∈ hd) (hn : ∀ r ∈ rows, ∀ w ∈ r, num w ≠ none)
    (h2 : 2 ≤ rows.length) :
    ∃ f, readCsv env num n lines = .ok f ∧ f.sc = sc ∧ f.date = t / 1000000 ∧ f.wide = true ∧
      List.Forall₂ (FromRow num hd) rows f.rows := by
  obtain ⟨ps, e, hp⟩ := toPasses_ok hall (fun r hr => (h.cells r hr).1) hn
  refine ⟨⟨sc, (t : ℝ) / 1000000, true, ps⟩, ?_, rfl, rfl, rfl, hp⟩
  rw [readCsv_named hname hs ht, loadtxt_table h.sheet hn, header_table h.sheet]
  simp only [Except.bind, twoDim_table h, h2, decide_true, if_true, e]

theorem column_unique {hd r : List Name} {name w w' : Name} (h : Column hd r name w) (h' : Column hd r name w') : w = w' := by
  obtain ⟨j, h1, h2, h3⟩ := h
  obtain ⟨k, g1, g2, g3⟩ := h'
  have e : j = k := by
    rcases lt_trichotomy j k with hlt | e | hlt
    · exact absurd h1 (g3 j hlt)
    · exact e
    · exact absurd g1 (h3 k hlt)
  subst e
  rw [h2] at g2
  exact Option.some.inj g2

theorem pass_unique {num : Name → Option ℝ} {hd hd' r r' : List Name} {p p' : Pass}
    (a : ∀ name ∈ needed, ∀ w, Column hd r name w → Column hd' r' name w) (b : FromRow num hd r p) (b' : FromRow num hd' r' p') :
    p = p' := by
  have key : ∀ name ∈ needed, ∀ v v', Has num hd r name v → Has num hd' r' name v' → v = v' := by
    rintro name hname v v' ⟨w, w1, w2⟩ ⟨w', w1', w2'⟩
    have := column_unique (a name hname w w1) w1'
    subst this
    rw [w2] at w2'
    exact Option.some.inj w2'
  have k1 := key _ (by simp [needed]) _ _ b.hem b'.hem
  have k2 := key _ (by simp [needed]) _ _ b.fom b'.fom
  have k3 := key _ (by simp [needed]) _ _ b.utPo1 b'.utPo1
  have k4 := key _ (by simp [needed]) _ _ b.utPo2 b'.utPo2
  have k5 := key _ (by simp [needed]) _ _ b.utEq1 b'.utEq1
  have k6 := key _ (by simp [needed]) _ _ b.utEq2 b'.utEq2
  have k7 := key _ (by simp [needed]) _ _ b.latPo1 b'.latPo1
  have k8 := key _ (by simp [needed]) _ _ b.latPo2 b'.latPo2
  have k9 := key _ (by simp [needed]) _ _ b.latEq1 b'.latEq1
  have k10 := key _ (by simp [needed]) _ _ b.latEq2 b'.latEq2
  have k11 := key _ (by simp [needed]) _ _ b.lonPo1 b'.lonPo1
  have k12 := key _ (by simp [needed]) _ _ b.lonPo2 b'.lonPo2
  have k13 := key _ (by simp [needed]) _ _ b.lonEq1 b'.lonEq1
  have k14 := key _ (by simp [needed]) _ _ b.lonEq2 b'.lonEq2
  obtain ⟨hem, fom, ut, lat, lon⟩ := p
  obtain ⟨hem', fom', ut', lat', lon'⟩ := p'
  simp only at k1 k2 k3 k4 k5 k6 k7 k8 k9 k10 k11 k12 k13 k14
  have c1 : ut = ut' := funext fun b => by
    cases b
    · exact Prod.ext k3 k4
    · exact Prod.ext k5 k6
  have c2 : lat = lat' := funext fun b => by
    cases b
    · exact Prod.ext k7 k8
    · exact Prod.ext k9 k10
  have c3 : lon = lon' := funext fun b => by
    cases b
    · exact Prod.ext k11 k12
    · exact Prod.ext k13 k14
  rw [k1, k2, c1, c2, c3]

/-- C209: the order of the columns, further columns and comments do not matter: two files of the same name whose rows have
the same texts in the columns that are used are read alike. -/
theorem C209_order {env : Env} {num : Name → Option ℝ} {n sat ymd : Name} (hname : NamedCsv n sat ymd) {sc t : ℤ}
    (hs : env.int sat = some sc) (ht : env.date ymd = some t) {lines lines' hd hd' : List Name} {rows rows' : List (List Name)}
    (h : Table lines hd rows) (h' : Table lines' hd' rows') (hall : ∀ name ∈ needed, name ∈ hd)
    (hall' : ∀ name ∈ needed, name ∈ hd') (hn : ∀ r ∈ rows, ∀ w ∈ r, num w ≠ none) (hn' : ∀ r ∈ rows', ∀ w ∈ r, num w ≠ none)
    (hsame : List.Forall₂ (fun r r' => ∀ name ∈ needed, ∀ w, Column hd r name w → Column hd' r' name w) rows rows') :
    readCsv env num n lines = readCsv env num n lines' := by
  obtain ⟨ps, e, hp⟩ := toPasses_ok hall (fun r hr => (h.cells r hr).1) hn
  obtain ⟨ps', e', hp'⟩ := toPasses_ok hall' (fun r hr => (h'.cells r hr).1) hn'
  rw [readCsv_named hname hs ht, readCsv_named hname hs ht, loadtxt_table h.sheet hn, loadtxt_table h'.sheet hn', header_table h.sheet,
    header_table h'.sheet]
  simp only [Except.bind, twoDim_table h, twoDim_table h', e, e']
  have hps : ps = ps' := by
    clear h h' e e' hn hn'
    induction hsame generalizing ps ps' with
    | nil => cases hp; cases hp'; rfl
    | cons a _ ih =>
      cases hp with
      | cons b hb =>
        cases hp' with
        | cons b' hb' =>
          rw [pass_unique a b b', ih _ hb _ hb']
  rw [hps, hsame.length_eq]

/-- C209: a file with fewer than two rows of numbers is left out, whatever its columns. -/
theorem C209_short {env : Env} {num : Name → Option ℝ} {n sat ymd : Name} (hname : NamedCsv n sat ymd) {sc t : ℤ}
    (hs : env.int sat = some sc) (ht : env.date ymd = some t) {lines hd : List Name} {rows : List (List Name)}
    (h : Table lines hd rows) (hn : ∀ r ∈ rows, ∀ w ∈ r, num w ≠ none) (h2 : rows.length < 2) :
    ∃ f, readCsv env num n lines = .ok f ∧ readable f = false := by
  refine ⟨⟨sc, (t : ℝ) / 1000000, false, []⟩, ?_, rfl⟩
  rw [readCsv_named hname hs ht, loadtxt_table h.sheet hn, header_table h.sheet]
  simp only [Except.bind, twoDim_table h, show ¬ 2 ≤ rows.length by omega, decide_false, Bool.false_eq_true, if_false]

/-- C209: a file whose rows have fewer or more cells than the header is left out. -/
theorem C209_width {env : Env} {num : Name → Option ℝ} {n sat ymd : Name} (hname : NamedCsv n sat ymd) {sc t : ℤ}
    (hs : env.int sat = some sc) (ht : env.date ymd = some t) {lines hd : List Name} {w : ℕ} {rows : List (List Name)}
    (h : Sheet lines hd w rows) (hn : ∀ r ∈ rows, ∀ w ∈ r, num w ≠ none) (hw : w ≠ hd.length) :
    ∃ f, readCsv env num n lines = .ok f ∧ readable f = false := by
  refine ⟨⟨sc, (t : ℝ) / 1000000, false, []⟩, ?_, rfl⟩
  have e : twoDim hd (rows.map (nums num)) = false := by
    unfold twoDim
    rw [decide_eq_false_iff_not]
    rintro ⟨h1, -, h3⟩
    cases rows with
    | nil => simp at h1
    | cons r rs =>
      refine hw ?_
      rw [← (h.cells r (by simp)).1, ← h3]
      simp [nums]
  rw [readCsv_named hname hs ht, loadtxt_table h hn, header_table h]
  simp only [Except.bind, e, Bool.false_eq_true, if_false]

theorem places_error {hd : List Name} {pre : Name} :
    (∃ g, places hd pre = .ok g) ∨ places hd pre = .error .valueError := by
  unfold places index
  split_ifs <;> first | exact .inr rfl | exact .inl ⟨_, rfl⟩

theorem places_missing {hd : List Name} {pre : Name} {b : Bd} {i : Char} (hi : i = '1' ∨ i = '2') (h : colName pre b i ∉ hd) :
    places hd pre = .error .valueError := by
  rcases places_error (hd := hd) (pre := pre) with ⟨g, hg⟩ | he
  · exfalso
    unfold places index at hg
    split_ifs at hg with h1 h2 h3 h4 <;> first | cases hg | skip
    rcases hi with rfl | rfl <;> cases b <;> exact absurd (by assumption) h
  · exact he

theorem toPasses_missing {hd : List Name} {data : List (List ℝ)} {name : Name} (hm : name ∈ needed) (h : name ∉ hd) :
    toPasses hd data = .error .valueError := by
  have split3 : ∀ {pre : Name}, (∃ g, places hd pre = .ok g) ∨ places hd pre = .error .valueError := places_error
  have idx : ∀ m : Name, index hd m = .error .valueError ∨ ∃ j, index hd m = .ok j := by
    intro m
    unfold index
    split_ifs
    · exact .inr ⟨_, rfl⟩
    · exact .inl rfl
  unfold toPasses
  rcases split3 (pre := "UTSec".toList) with ⟨ut, u⟩ | u
  swap
  · rw [u]; rfl
  rcases split3 (pre := "SC_GEOCENTRIC_LAT".toList) with ⟨lat, l⟩ | l
  swap
  · rw [u, l]; rfl
  rcases split3 (pre := "SC_GEOCENTRIC_LON".toList) with ⟨lon, m⟩ | m
  swap
  · rw [u, l, m]; rfl
  rcases idx "hemisphere".toList with i1 | ⟨i1', i1⟩
  · rw [u, l, m, i1]; rfl
  rcases idx "FOM".toList with i2 | ⟨i2', i2⟩
  · rw [u, l, m, i1, i2]; rfl
  exfalso
  have no : ∀ {m : Name} {j : ℕ}, index hd m = .ok j → m ∈ hd := by
    intro m j hj
    by_contra hc
    rw [index, if_neg hc] at hj
    cases hj
  have bad : ∀ {pre : Name} {g : Bd → ℕ × ℕ} {b : Bd} {i : Char}, i = '1' ∨ i = '2' → places hd pre = .ok g → colName pre b i ∉ hd → False := by
    intro pre g b i hi hg hc
    rw [places_missing hi hc] at hg
    cases hg
  simp only [needed, List.mem_cons, List.not_mem_nil, or_false] at hm
  rcases hm with rfl | rfl | rfl | rfl | rfl | rfl | rfl | rfl | rfl | rfl | rfl | rfl | rfl | rfl
  · exact h (no i1)
  · exact h (no i2)
  · exact bad (b := .po) (i := '1') (.inl rfl) u h
  · exact bad (b := .po) (i := '2') (.inr rfl) u h
  · exact bad (b := .eq) (i := '1') (.inl rfl) u h
  · exact bad (b := .eq) (i := '2') (.inr rfl) u h
  · exact bad (b := .po) (i := '1') (.inl rfl) l h
  · exact bad (b := .po) (i := '2') (.inr rfl) l h
  · exact bad (b := .eq) (i := '1') (.inl rfl) l h
  · exact bad (b := .eq) (i := '2') (.inr rfl) l h
  · exact bad (b := .po) (i := '1') (.inl rfl) m h
  · exact bad (b := .po) (i := '2') (.inr rfl) m h
  · exact bad (b := .eq) (i := '1') (.inl rfl) m h
  · exact bad (b := .eq) (i := '2') (.inr rfl) m h

/-- C209: without one of the columns the file raises ValueError. -/
theorem C209_missing {env : Env} {num : Name → Option ℝ} {n sat ymd : Name} (hname : NamedCsv n sat ymd) {sc t : ℤ}
    (hs : env.int sat = some sc) (ht : env.date ymd = some t) {lines hd : List Name} {rows : List (List Name)}
    (h : Table lines hd rows) (hn : ∀ r ∈ rows, ∀ w ∈ r, num w ≠ none) (h2 : 2 ≤ rows.length) {name : Name}
    (hm : name ∈ needed) (hmiss : name ∉ hd) : readCsv env num n lines = .error .valueError := by
  rw [readCsv_named hname hs ht, loadtxt_table h.sheet hn, header_table h.sheet]
  simp only [Except.bind, twoDim_table h, h2, decide_true, if_true, toPasses_missing hm hmiss]

/-- C209: a text that is no number, even in a column that is not used, raises ValueError. -/
theorem C209_text {env : Env} {num : Name → Option ℝ} {n sat ymd : Name} (hname : NamedCsv n sat ymd) {sc t : ℤ}
    (hs : env.int sat = some sc) (ht : env.date ymd = some t) {lines hd : List Name} {rows : List (List Name)}
    (h : Table lines hd rows) (hn : ∃ r ∈ rows, ∃ w ∈ r, num w = none) : readCsv env num n lines = .error .valueError := by
  rw [readCsv_named hname hs ht, loadtxt_text h hn]
  rfl

/-- C209 fails for a header with a comment mark in front, as other files of the library have it: it is taken as a comment
and the first row as the header, which raises ValueError. -/
theorem C209_marked_refuted {env : Env} {num : Name → Option ℝ} {n sat ymd : Name} (hname : NamedCsv n sat ymd) {sc t : ℤ}
    (hs : env.int sat = some sc) (ht : env.date ymd = some t) {hd : List Name} {rows : List (List Name)} (h2 : 2 ≤ hd.length)
    (h3 : 3 ≤ rows.length) (hrows : ∀ r ∈ rows, r.length = hd.length ∧ ∀ w ∈ r, num w ≠ none ∧ ∀ c ∈ w, c ≠ ',' ∧ c ≠ '\n' ∧ c ≠ '#')
    (hnum : num "hemisphere".toList = none) :
    readCsv env num n (('#' :: (row hd ++ ['\n'])) :: rows.map fun r => row r ++ ['\n']) = .error .valueError := by
  match rows, h3 with
  | r :: rs, h3 =>
    have hr := hrows r (by simp)
    have ht' : Table (('#' :: (row hd ++ ['\n'])) :: (r :: rs).map fun r => row r ++ ['\n']) r rs := by
      refine ⟨⟨[row hd ++ ['\n']], rs.map .inl, ?_, ?_⟩, by rw [hr.1]; exact h2, ?_, ?_, ?_⟩
      · simp [below, Function.comp_def]
      · rw [List.filterMap_map]
        simp [Function.comp_def]
      · exact fun w hw c hc => ⟨((hr.2 w hw).2 c hc).1, ((hr.2 w hw).2 c hc).2.1⟩
      · intro e
        exact row_chars (P := fun c => c ≠ '#') (by decide) r (fun w hw c hc => ((hr.2 w hw).2 c hc).2.2) '#'
          (List.mem_of_mem_head? e) rfl
      · intro q hq
        have := hrows q (by simp [hq])
        exact ⟨by rw [this.1, hr.1], fun w hw => (this.2 w hw).2⟩
    refine C209_missing hname hs ht ht' (fun q hq w hw => ((hrows q (by simp [hq])).2 w hw).1) (by simpa using h3)
      (name := "hemisphere".toList) (by simp [needed]) ?_
    intro hc
    exact (hr.2 _ hc).1 hnum

theorem writeTexts_eq {mag : ℝ → ℝ → ℝ → ℝ × ℝ} {env : Env} {num : Name → Option ℝ} {inputs : List (Name × List Name)} {files : List Csv}
    (h : List.Forall₂ (fun x f => readCsv env num x.1 x.2 = .ok f) inputs files) (o : Out) :
    writeTexts mag env num inputs o = writeFiles mag files o := by
  induction h generalizing o with
  | nil => rfl
  | @cons x f _ _ a _ ih =>
    obtain ⟨n, lines⟩ := x
    rw [writeTexts, writeFiles, a]
    simp only [bind, Except.bind]
    split_ifs with hr
    · cases hw : writeRows mag f f.rows o with
      | error e => rfl
      | ok o' => exact ih o'
    · exact ih o

/-- C209: when all files are read, the boundary files are those that the passes make (C55, C82, C83, C208). -/
theorem C209_format {mag : ℝ → ℝ → ℝ → ℝ × ℝ} {env : Env} {num : Name → Option ℝ} {inputs : List (Name × List Name)} {files : List Csv}
    (h : List.Forall₂ (fun x f => readCsv env num x.1 x.2 = .ok f) inputs files) :
    formatTexts mag env num inputs = Dmsp.format mag files := by
  unfold formatTexts Dmsp.format
  rw [writeTexts_eq h]
  cases h <;> rfl

/-- C209: a file that cannot be read stops the call with its error, if the files in front of it could be written. -/
theorem C209_stops {mag : ℝ → ℝ → ℝ → ℝ × ℝ} {env : Env} {num : Name → Option ℝ} {inputs rest : List (Name × List Name)}
    {files : List Csv} (h : List.Forall₂ (fun x f => readCsv env num x.1 x.2 = .ok f) inputs files)
    (hh : ∀ f ∈ files, ∀ p ∈ f.rows, p.hem = 1 ∨ p.hem = -1) {x : Name × List Name} {e : PyErr}
    (hx : readCsv env num x.1 x.2 = .error e) : formatTexts mag env num (inputs ++ x :: rest) = .error e := by
  unfold formatTexts
  rw [if_neg (by simp)]
  have gen : ∀ o, writeTexts mag env num (inputs ++ x :: rest) o = .error e := by
    induction h with
    | nil =>
      intro o
      rw [List.nil_append]
      obtain ⟨n, lines⟩ := x
      rw [writeTexts, hx]
      rfl
    | @cons y f _ _ a _ ih =>
      intro o
      obtain ⟨n, lines⟩ := y
      rw [List.cons_append, writeTexts, a]
      simp only [bind, Except.bind]
      have ih := ih fun g hg => hh g (by simp [hg])
      split_ifs with hr
      · obtain ⟨add, ha, -⟩ := writeRows_ok mag f f.rows o (hh f (by simp))
        rw [ha]
        exact ih _
      · exact ih o
  exact gen _

/-! ### Examples -/

/-- The text under a name -/
def exText (name : Name) : Name :=
  if name = "hemisphere".toList then "1".toList else if name = "FOM".toList then "3.5".toList else "70".toList

/-- The conversion of these texts -/
noncomputable def exNum (w : Name) : Option ℝ :=
  if w = "1".toList then some 1 else if w = "3.5".toList then some 3.5 else if w = "70".toList then some 70 else none

theorem exNum_text (name : Name) : exNum (exText name) ≠ none := by
  unfold exText
  split_ifs
  · simp [exNum]
  · rw [exNum, if_neg (by decide), if_pos rfl]; simp
  · rw [exNum, if_neg (by decide), if_neg (by decide), if_pos rfl]; simp

theorem exText_chars (name : Name) : ∀ c ∈ exText name, c ≠ ',' ∧ c ≠ '\n' ∧ c ≠ '#' := by
  unfold exText
  split_ifs <;> decide

/-- A file with two comments in front, one between the rows, and the given columns -/
def exLines (hd : List Name) : List Name :=
  ["# DMSP\n".toList, "# boundaries\n".toList, row hd ++ ['\n'], row (hd.map exText) ++ ['\n'], "# gap\n".toList,
    row (hd.map exText) ++ ['\n']]

theorem exLines_table {hd : List Name} (h2 : 2 ≤ hd.length) (hn : ∀ w ∈ hd, ∀ c ∈ w, c ≠ ',' ∧ c ≠ '\n')
    (hp : (row hd).head? ≠ some '#') : Table (exLines hd) hd [hd.map exText, hd.map exText] := by
  refine ⟨⟨[" DMSP\n".toList, " boundaries\n".toList], [.inl (hd.map exText), .inr " gap\n".toList, .inl (hd.map exText)],
    rfl, rfl⟩, h2, hn, hp, ?_⟩
  intro r hr
  simp only [List.mem_cons, List.not_mem_nil, or_false, or_self] at hr
  subst hr
  refine ⟨by simp, fun w hw => ?_⟩
  obtain ⟨name, -, rfl⟩ := List.mem_map.1 hw
  exact exText_chars name

theorem exColumn {hd : List Name} {name w : Name} (h : name ∈ hd) : Column hd (hd.map exText) name w ↔ w = exText name := by
  constructor
  · rintro ⟨j, h1, h2, -⟩
    rw [List.getElem?_map, h1] at h2
    exact (Option.some.inj h2).symm
  · rintro rfl
    have hj := List.idxOf_lt_length_of_mem h
    refine ⟨hd.idxOf name, ?_, ?_, ?_⟩
    · rw [List.getElem?_eq_getElem hj, List.getElem_idxOf]
    · rw [List.getElem?_map, List.getElem?_eq_getElem hj, List.getElem_idxOf]
      rfl
    · intro i hi hc
      obtain ⟨hi', e⟩ := List.getElem?_eq_some_iff.1 hc
      have := List.not_of_lt_findIdx (p := (· == name)) (xs := hd) (i := i) hi
      simp [e] at this

/-- The columns in another order, with one more -/
def exOther : List Name := "orbit".toList :: needed.reverse

theorem exTables : Table (exLines needed) needed [needed.map exText, needed.map exText] ∧
    Table (exLines exOther) exOther [exOther.map exText, exOther.map exText] :=
  ⟨exLines_table (by decide) (by decide) (by decide), exLines_table (by decide) (by decide) (by decide)⟩

/-- A name, the text of its satellite and of its date -/
theorem exNamed : NamedCsv "SSJ/dmsp-f16_ssj_precipitating-electrons-ions_20101231_v1.1.2_boundaries.csv".toList "16".toList
    "20101231".toList := by
  refine ⟨"SSJ".toList, "precipitating-electrons-ions".toList, "v1.1.2".toList, "boundaries.csv".toList, by decide, by decide,
    ?_, by decide, by decide, by decide, by decide⟩
  rw [← Files.contains_iff]
  decide

/-- Conversions for the name -/
def exEnv : Env := ⟨fun w => if w = "16".toList then some 16 else none, fun w => if w = "20101231".toList then some 63429350400000000 else none,
  0, 0⟩

theorem exRows_num {hd : List Name} : ∀ r ∈ [hd.map exText, hd.map exText], ∀ w ∈ r, exNum w ≠ none := by
  intro r hr w hw
  simp only [List.mem_cons, List.not_mem_nil, or_false, or_self] at hr
  subst hr
  obtain ⟨name, -, rfl⟩ := List.mem_map.1 hw
  exact exNum_text name

example : ∃ f, readCsv exEnv exNum "SSJ/dmsp-f16_ssj_precipitating-electrons-ions_20101231_v1.1.2_boundaries.csv".toList
    (exLines needed) = .ok f ∧ f.sc = 16 ∧ f.rows.length = 2 := by
  obtain ⟨f, h1, h2, -, -, h3⟩ := C209_read (env := exEnv) (num := exNum) exNamed (sc := 16) (t := 63429350400000000) rfl rfl
    exTables.1 (fun _ h => h) exRows_num le_rfl
  exact ⟨f, h1, h2, h3.length_eq.symm⟩

example : readCsv exEnv exNum "SSJ/dmsp-f16_ssj_precipitating-electrons-ions_20101231_v1.1.2_boundaries.csv".toList (exLines needed)
    = readCsv exEnv exNum "SSJ/dmsp-f16_ssj_precipitating-electrons-ions_20101231_v1.1.2_boundaries.csv".toList (exLines exOther) := by
  have hm : ∀ name ∈ needed, name ∈ exOther := fun name h => by simp [exOther, h]
  refine C209_order exNamed (sc := 16) (t := 63429350400000000) rfl rfl exTables.1 exTables.2 (fun _ h => h) hm exRows_num exRows_num ?_
  have : ∀ name ∈ needed, ∀ w, Column needed (needed.map exText) name w → Column exOther (exOther.map exText) name w :=
    fun name h w hc => (exColumn (hm name h)).2 ((exColumn h).1 hc)
  exact .cons this (.cons this .nil)

/-- Non-vacuity of `C209_width`: three names, two cells in each row. -/
example : Sheet ["#by hand\n".toList, "a,b,c\n".toList, "1,2\n".toList, "3,4\n".toList] ["a".toList, "b".toList, "c".toList] 2
    [["1".toList, "2".toList], ["3".toList, "4".toList]] := by
  refine ⟨⟨["by hand\n".toList], [.inl ["1".toList, "2".toList], .inl ["3".toList, "4".toList]], by decide, rfl⟩, by decide, le_rfl,
    by decide, by decide, ?_⟩
  intro r hr
  simp only [List.mem_cons, List.not_mem_nil, or_false] at hr
  rcases hr with rfl | rfl <;> exact ⟨rfl, by decide⟩

end Ocb.DmspCsv
