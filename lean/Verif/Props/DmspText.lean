import Verif.Model.DmspText
import Verif.Props.OutText
import Verif.Props.Init
import Verif.Props.DmspFiles
import Mathlib.Data.List.TakeWhile

/-!
# Property C208: the DMSP boundary files are loaded with the passes they were made of

Vocabulary: `Cut` relates a time in seconds to the time of the record, `Tells` says what a record should hold of a pass.
-/

set_option autoImplicit false

namespace Ocb.DmspText

open Ocb.Files (Name lower)
open Ocb.Text
open Ocb.OutText
open Ocb.Init
open Ocb.Vort (F Conv)
open Ocb.Smag (words)
open Ocb.Dmsp (Line Csv Pass Bd Describes ofHem passes Lists onCircle posX posY LoadedAs)
open Ocb.Dbl (toDouble)
open Ocb.Coord (Rec windowRows FnArg InHem normalPt polarCentre)

variable {Fn Kw : Type}

/-! ### The words of a line -/

/-- The times that can be written and read back: from the year 1000 to the end of the calendar, in seconds -/
def InCalendar (m : ℝ) : Prop := 364878 * 86400 ≤ m ∧ m * 1000000 ≤ maxStamp

/-- The time of a record: the time `m` in seconds, to half a microsecond, cut to whole seconds -/
def Cut (m : ℝ) (t : ℤ) : Prop := t % 1000000 = 0 ∧ t ≤ m * 1000000 + 1 / 2 ∧ m * 1000000 ≤ t + 999999 + 1 / 2

theorem strf_parts {t : ℤ} (h1 : 364878 * 86400000000 ≤ t) (h3 : t ≤ maxStamp) : ∃ y m d hh mi s : ℕ, Valid y m d ∧ hh < 24 ∧
    mi < 60 ∧ s < 60 ∧ t / 1000000 * 1000000 = midnight y m d + ((hh * 60 + mi) * 60 + s) * 1000000 ∧
    strfDate t = dateText y m d ∧ strfClock t = pad2 hh ++ ':' :: (pad2 mi ++ ':' :: pad2 s) := by
  have hms : maxStamp = 3652059 * 86400000000 + 86399999999 := by
    unfold maxStamp
    rw [stamp_eq]
    unfold maxOrd
    norm_num
  obtain ⟨n, hn⟩ : ∃ n : ℕ, (n : ℤ) = t / 86400000000 := ⟨(t / 86400000000).toNat, by omega⟩
  obtain ⟨q, hq⟩ : ∃ q : ℕ, (q : ℤ) = t / 1000000 % 86400 := ⟨(t / 1000000 % 86400).toNat, by omega⟩
  have hn1 : 364878 ≤ n := by omega
  have hn3 : n ≤ 3652059 := by omega
  have hq1 : q < 86400 := by omega
  obtain ⟨y, m, d, e, g1, g2, g3, g4, g5, g6, g7, g8⟩ := civil_spec (n := n) (by omega)
  have hy' : y ≤ 9999 := by
    by_contra hc
    have := dby_mono (a := 10000) (b := y) (by omega) (by omega)
    have h9 : dby 10000 = 3652059 := by decide
    omega
  have hy : 1000 ≤ y := by
    by_contra hc
    have := dby_mono (a := y + 1) (b := 1000) (by omega) (by omega)
    have h9 : dby 1000 = 364877 := by decide
    omega
  have hv : Valid y m d := ⟨g1, hy', g2, g3, g4, g5⟩
  refine ⟨y, m, d, q / 3600, q / 60 % 60, q % 60, hv, by omega, by omega, by omega, ?_, ?_, ?_⟩
  · unfold midnight
    rw [g6]
    push_cast
    omega
  · unfold strfDate
    rw [show (t / 86400000000).toNat = n by omega, e]
    simp only
    rw [← pad4_dec hy (by omega)]
    rfl
  · unfold strfClock
    simp only
    rw [show (t / 1000000 % 86400).toNat = q by omega]

theorem mid_range {l : Line} (h : InCalendar l.time) : 364878 * 86400000000 ≤ midTime l ∧ midTime l ≤ maxStamp := by
  constructor
  · have := roundEven_mono (x := ((364878 * 86400000000 : ℤ) : ℝ)) (y := l.time * 1000000) (by
      push_cast; linarith [h.1])
    rwa [roundEven_int] at this
  · have := roundEven_mono (x := l.time * 1000000) (y := ((maxStamp : ℤ) : ℝ)) h.2
    rwa [roundEven_int] at this

theorem mid_cut (l : Line) : Cut l.time (midTime l / 1000000 * 1000000) := by
  have h := abs_le.1 (roundEven_near (l.time * 1000000))
  have e : roundEven (l.time * 1000000) = midTime l := rfl
  rw [e] at h
  have h1 : midTime l / 1000000 * 1000000 ≤ midTime l := by omega
  have h2 : midTime l ≤ midTime l / 1000000 * 1000000 + 999999 := by omega
  have h1' : ((midTime l / 1000000 * 1000000 : ℤ) : ℝ) ≤ midTime l := by exact_mod_cast h1
  have h2' : (midTime l : ℝ) ≤ ((midTime l / 1000000 * 1000000 : ℤ) : ℝ) + 999999 := by exact_mod_cast h2
  exact ⟨by omega, by linarith [h.2], by linarith [h.1]⟩

/-- The cells of a line -/
noncomputable def ssjWords (l : Line) : List Name :=
  decInt l.sc :: strfDate (midTime l) :: strfClock (midTime l) :: (ssjNums l).map (fixed 3)

theorem pad2_chars {n : ℕ} (h : n < 100) : ∀ c ∈ pad2 n, c ≠ '#' ∧ isWs c = false :=
  fun c hc => (digs_ne (pad2_spec h).2.1 c hc).2.2

theorem ssj_chars {l : Line} (h : InCalendar l.time) : ∀ w ∈ ssjWords l, w ≠ [] ∧ ∀ c ∈ w, c ≠ '#' ∧ isWs c = false := by
  obtain ⟨y, m, d, hh, mi, s, hv, h1, h2, h3, -, e1, e2⟩ := strf_parts (mid_range h).1 (mid_range h).2
  have hd : d < 100 := lt_of_le_of_lt (day_le hv.2.2.1 hv.2.2.2.1 hv.2.2.2.2.2) (by norm_num)
  have hm : m < 100 := by have := hv.2.2.2.1; omega
  intro w hw
  simp only [ssjWords, List.mem_cons, List.mem_map] at hw
  rcases hw with rfl | rfl | rfl | ⟨x, -, rfl⟩
  · obtain ⟨a1, a2, a3⟩ := dec_spec l.sc.natAbs
    unfold decInt
    split
    · refine ⟨by simp, fun c hc => ?_⟩
      rcases List.mem_cons.1 hc with rfl | hc
      · decide
      · exact (digs_ne a2 c hc).2.2
    · exact ⟨a3, fun c hc => (digs_ne a2 c hc).2.2⟩
  · rw [e1]
    refine ⟨by simp [dateText], fun c hc => ?_⟩
    simp only [dateText, List.mem_append, List.mem_cons] at hc
    rcases hc with hc | rfl | hc | rfl | hc
    · exact (digs_ne (pad4_spec (n := y) (by have := hv.2.1; omega)).2.1 c hc).2.2
    · decide
    · exact pad2_chars hm c hc
    · decide
    · exact pad2_chars hd c hc
  · rw [e2]
    refine ⟨by simp, fun c hc => ?_⟩
    simp only [List.mem_append, List.mem_cons] at hc
    rcases hc with hc | rfl | hc | rfl | hc
    · exact pad2_chars (by omega) c hc
    · decide
    · exact pad2_chars (by omega) c hc
    · decide
    · exact pad2_chars (by omega) c hc
  · exact fixed_chars x

theorem glue_no {l : List Name} (h : ∀ w ∈ l, ∀ c ∈ w, c ≠ '#') : ∀ c ∈ Ascii.glue l, c ≠ '#' := by
  induction l with
  | nil => intro c hc; simp [Ascii.glue, List.intercalate] at hc
  | cons w l ih =>
    intro c hc
    by_cases hl : l = []
    · subst hl
      rw [show Ascii.glue [w] = w by simp [Ascii.glue, List.intercalate]] at hc
      exact h w (by simp) c hc
    · rw [Ascii.glue_cons w hl] at hc
      simp only [List.mem_append, List.mem_cons] at hc
      rcases hc with hc | rfl | hc
      · exact h w (by simp) c hc
      · decide
      · exact ih (fun w hw => h w (by simp [hw])) c hc

theorem ssj_cells {l : Line} (h : InCalendar l.time) : cells (ssjLine l) = ssjWords l := by
  have hc := ssj_chars h
  have e : ssjLine l = Ascii.glue (ssjWords l) ++ [' ', '\n'] := by
    simp [ssjLine, ssjWords, ssjNums, Ascii.glue, List.intercalate]
  have e2 : (ssjLine l).takeWhile (· ≠ '#') = ssjLine l := by
    rw [List.takeWhile_eq_self_iff]
    intro c hm
    rw [e] at hm
    simp only [List.mem_append, List.mem_cons, List.not_mem_nil, or_false] at hm
    have : c ≠ '#' := by
      rcases hm with hm | rfl | rfl
      · exact glue_no (fun w hw c hc' => ((hc w hw).2 c hc').1) c hm
      · decide
      · decide
    simpa using this
  unfold cells
  rw [e2, e, Smag.words, Ascii.words_end _ (by decide)]
  exact Ascii.words_glue _ fun w hw => ⟨(hc w hw).1, fun c hc' => ((hc w hw).2 c hc').2⟩

/-! ### The record of a line -/

/-- The number is `a` to half a thousandth and the rounding of doubles. -/
def About (a : ℝ) (v : F) : Prop := ∃ b : ℝ, v = some b ∧ |b - a| ≤ 1 / 2 / 10 ^ 3 + 2 ^ (-52 : ℤ) * (|a| + 1)

theorem about_fixed {float : Conv} (hf : ReadsFloat float) (a : ℝ) : About a (number float (fixed 3 a)) := by
  obtain ⟨v, h1, h2⟩ := fixedF_read hf (k := 3) (by norm_num) (some a)
  rcases h2 with ⟨h, -⟩ | ⟨a', b, h3, h4, h5⟩
  · cases h
  · cases h3
    refine ⟨b, ?_, h5⟩
    have e := hf.plain _ _ (fixed_plain (k := 3) (by norm_num) a)
    simp only [Ascii.cast, Vort.toFloat, fixedF, e, Except.map, h4, Except.ok.injEq, Ascii.Val.num.injEq] at h1
    unfold number
    rw [e]
    exact h1

/-- What the record of a line should hold: the spacecraft, the numbers, and the centre in polar coordinates. -/
def RowOf (l : Line) (row : Row) : Prop :=
  numAt "sc".toList row = some (toDouble l.sc) ∧ About l.r (numAt "r".toList row) ∧ About l.fom (numAt "fom".toList row) ∧
    About l.x1 (numAt "x_1".toList row) ∧ About l.y1 (numAt "y_1".toList row) ∧ About l.x2 (numAt "x_2".toList row) ∧
    About l.y2 (numAt "y_2".toList row) ∧
    ∃ x y : ℝ, numAt "x".toList row = some x ∧ numAt "y".toList row = some y ∧ About l.x (some x) ∧ About l.y (some y) ∧
      numAt "r_cent".toList row = some (polarCentre x y).1 ∧ numAt "phi_cent".toList row = some (polarCentre x y).2

/-- The names of the columns -/
def ssjCols : List Name := words "sc date time r x y fom x_1 y_1 x_2 y_2".toList

theorem row_of {float : Conv} (hf : ReadsFloat float) (l : Line) : RowOf l (recordOf float ssjCols (ssjWords l)) := by
  obtain ⟨x, hx, hx'⟩ := about_fixed hf l.x
  obtain ⟨y, hy, hy'⟩ := about_fixed hf l.y
  have e1 : numAt "x".toList (recordOf float ssjCols (ssjWords l)) = number float (fixed 3 l.x) := rfl
  have e2 : numAt "y".toList (recordOf float ssjCols (ssjWords l)) = number float (fixed 3 l.y) := rfl
  have e3 : numAt "r_cent".toList (recordOf float ssjCols (ssjWords l)) =
    (match number float (fixed 3 l.x), number float (fixed 3 l.y) with
      | some x, some y => some (polarCentre x y)
      | _, _ => none).map Prod.fst := rfl
  have e4 : numAt "phi_cent".toList (recordOf float ssjCols (ssjWords l)) =
    (match number float (fixed 3 l.x), number float (fixed 3 l.y) with
      | some x, some y => some (polarCentre x y)
      | _, _ => none).map Prod.snd := rfl
  have e5 : numAt "sc".toList (recordOf float ssjCols (ssjWords l)) = number float (decInt l.sc) := rfl
  refine ⟨?_, about_fixed hf _, about_fixed hf _, about_fixed hf _, about_fixed hf _, about_fixed hf _, about_fixed hf _,
    x, y, by rw [e1, hx], by rw [e2, hy], ⟨x, rfl, hx'⟩, ⟨y, rfl, hy'⟩, ?_, ?_⟩
  · rw [e5, number, hf.plain _ _ (plain_int l.sc)]
    rfl
  · rw [e3, hx, hy]
    rfl
  · rw [e4, hx, hy]
    rfl

/-! ### Loading -/

/-- The class for the boundary: `OCBoundary` for the poleward one, `EABoundary` for the equatorward one -/
noncomputable def build (b : Bd) (W : World Fn Kw) (A : Args Fn Kw) : Except PyErr (Obj Fn Kw) :=
  match b with
  | .po => ocbInit W A
  | .eq => eabInit W A

theorem build_eq (b : Bd) {W : World Fn Kw} {A : Args Fn Kw} {f : Name} (hf : A.filename = .text f)
    (hd : lower f ≠ "default".toList) (hi : A.instrument = .text "dmsp-ssj".toList) (hr : A.rfunc = .dflt) :
    ∃ A' : Args Fn Kw, (A'.rfunc = .dflt ∨ A'.rfunc = .one W.circular) ∧ A' = { A with rfunc := A'.rfunc } ∧
      build b W A = ocbInit W A' := by
  cases b with
  | po => exact ⟨A, .inl hr, rfl, rfl⟩
  | eq =>
    refine ⟨{ A with rfunc := .one W.circular }, .inr rfl, rfl, ?_⟩
    unfold build
    rw [C123_accepted_partial W A hr hi (by simp)]
    refine C123_as_ocb W _ (by simp) ?_
    intro g hg
    rw [hf] at hg
    cases hg
    exact hd

/-- The file is as `ls` was written. -/
def FileOf (W : World Fn Kw) (f : Name) (ls : List Line) : Prop :=
  W.good f = true ∧ W.lines f = (ssjLines ls).map cells

theorem data_lines {W : World Fn Kw} {f : Name} {ls : List Line} (h : FileOf W f ls) (hc : ∀ l ∈ ls, InCalendar l.time) :
    dataLines W f 1 = ls.map ssjWords := by
  have e : (ls.map ssjLine).map cells = ls.map ssjWords := by
    rw [List.map_map]
    exact List.map_congr_left fun l hl => ssj_cells (hc l hl)
  unfold dataLines
  rw [h.2, ssjLines, List.map_cons, List.drop_one, List.tail_cons, e, List.filter_eq_self]
  intro w hw
  obtain ⟨l, -, rfl⟩ := List.mem_map.1 hw
  simp [ssjWords]

theorem stamp_of {l : Line} (h : InCalendar l.time) : DmspStamp (ssjWords l) := by
  obtain ⟨y, m, d, hh, mi, s, hv, h1, h2, h3, -, e1, e2⟩ := strf_parts (mid_range h).1 (mid_range h).2
  exact ⟨y, m, d, hh, mi, s, hv, h1, h2, h3, congrArg some e1, congrArg some e2⟩

theorem lines_loaded {W : World Fn Kw} {A : Args Fn Kw} (hh : A.hem = 1 ∨ A.hem = -1)
    (hx : A.lat ≠ none) {f : Name} (hf : A.filename = .text f) (hd : lower f ≠ "default".toList)
    (hi : A.instrument = .text "dmsp-ssj".toList) (hr : A.rfunc = .dflt ∨ A.rfunc = .one W.circular) (hk : A.kwargs = .dflt)
    {ls : List Line} (hfile : FileOf W f ls) (hc : ∀ l ∈ ls, InCalendar l.time) (h1 : ls.length ≠ 1) :
    ∃ o, ocbInit W A = .ok o ∧ o.rfunc = .array (List.replicate o.records W.circular) ∧
      o.records = (windowRows A.stime A.etime ((ls.map fun l => midTime l / 1000000 * 1000000).zip ls)).length ∧
      o.recInd = -1 ∧
      o.dtime = some ((windowRows A.stime A.etime ((ls.map fun l => midTime l / 1000000 * 1000000).zip ls)).map (·.1)) ∧
      o.rows = (windowRows A.stime A.etime ((ls.map fun l => midTime l / 1000000 * 1000000).zip ls)).map
        fun p => recordOf W.float ssjCols (ssjWords p.2) := by
  have hlow : lower "dmsp-ssj".toList = "dmsp-ssj".toList := by decide
  have hdata := data_lines hfile hc
  obtain ⟨o, ho⟩ := C122_succeeds (W := W) (A := A) hh hx hf hd hfile.1 hi
    (by
      rw [hlow]
      exact ⟨hr.imp (fun e => ⟨e, by simp⟩) fun e => ⟨_, e⟩, .inl hk⟩) (k := 11)
    (.inr (.inr ⟨hlow, by rw [hdata, List.length_map]; exact h1, le_rfl, by
      rw [hdata]
      intro ws hws
      obtain ⟨l, hl, rfl⟩ := List.mem_map.1 hws
      exact ⟨rfl, stamp_of (hc l hl)⟩⟩))
  obtain ⟨n1, n2, -⟩ := C122_named ho hf hd hi
  have hname := n2 hfile.1
  rw [hlow] at n1
  refine ⟨o, ho, ?_, ?_⟩
  · obtain ⟨x, -, hp, hl⟩ := filled ho hname
    obtain ⟨rows, times, fs, ks, -, -, -, h4, -, h6⟩ := loadObj_inv hl (colsOf_flag _)
    have e : (blank A (some f, o.instrument) x).rfunc = A.rfunc := rfl
    have e2 : (blank A (some f, o.instrument) x).instrument = o.instrument := rfl
    rw [e] at h4
    have h5 : fs = List.replicate (windowRows A.stime A.etime (times.zip
        (rows.map (addCentre (words (colsOf o.instrument)))))).length W.circular := by
      rw [n1] at h4 ⊢
      rcases hr with hr | hr
      · rw [hr] at h4
        exact (Except.ok.inj h4).symm
      · rw [hr] at h4
        exact (Except.ok.inj h4).symm
    rw [h6]
    simp only [h5]
  · have hcols : words (colsOf o.instrument) = ssjCols := by rw [n1]; rfl
    obtain ⟨ts, -, t2, t3, t4, t5, t6⟩ := records_from ho hname (d := instDefaults (some "dmsp-ssj".toList)) (by rw [n1]) hcols
    have e0 : (instDefaults (some "dmsp-ssj".toList)).hlines = 1 := rfl
    rw [e0, hdata] at t2 t3 t5 t6
    have e1 : ts = ls.map fun l => midTime l / 1000000 * 1000000 := by
      rw [List.forall₂_map_left_iff] at t2
      refine forall₂_eq_map ?_
      have t2' := List.forall₂_iff_get.1 t2
      refine List.forall₂_iff_get.2 ⟨t2'.1, fun i hi hi' => ?_⟩
      have := (t2'.2 i hi hi').2
      obtain ⟨y, m, d, hh, mi, s, hv, g1, g2, g3, g4, e1, e2⟩ := strf_parts (mid_range (hc _ (List.getElem_mem hi))).1
        (mid_range (hc _ (List.getElem_mem hi))).2
      have e : rowTime (flag ssjCols) (instDefaults (some "dmsp-ssj".toList)).fmt
          ((ssjCols.zip (ssjWords ls[i])).map fun p => (p.1, cell W.float (flag ssjCols) p.1 p.2))
          = convertTime none none none none (some ((strfDate (midTime ls[i])).take 50))
            (some ((strfClock (midTime ls[i])).take 50)) "%Y-%m-%d %H:%M:%S".toList := rfl
      rw [List.get_eq_getElem, e, e1, e2, take_short, take_short, C84_default_format hv g1 g2 g3] at this
      · simp only [List.get_eq_getElem]
        rw [g4]
        exact (Except.ok.inj this).symm
      · simp [pad2]
      · simp [dateText, pad2, pad4]
    subst e1
    rw [window_map] at t3 t5 t6
    refine ⟨by rw [t3, List.length_map], t4, ?_, ?_⟩
    · rw [t5, List.map_map]
      rfl
    · rw [t6, List.map_map]
      rfl

theorem window_pair {α β : Type} {R : α → β → Prop} (s e : Option ℤ) {l : List α} {m : List β} (h : List.Forall₂ R l m) :
    ∀ ts : List ℤ, List.Forall₂ (fun p q => p.1 = q.1 ∧ R p.2 q.2) (windowRows s e (ts.zip l)) (windowRows s e (ts.zip m)) := by
  induction h with
  | nil => intro ts; simp [windowRows]
  | cons a _ ih =>
    intro ts
    cases ts with
    | nil => simp [windowRows]
    | cons t ts =>
      have := ih ts
      simp only [windowRows, List.zip_cons_cons, List.filter_cons] at this ⊢
      split_ifs
      · exact .cons ⟨rfl, a⟩ this
      · exact this

/-- Halfway between the crossings, in seconds -/
noncomputable def halfway (b : Bd) (fp : Csv × Pass) : ℝ := fp.1.date + ((fp.2.ut b).1 + (fp.2.ut b).2) / 2

theorem time_halfway {mag : ℝ → ℝ → ℝ → ℝ × ℝ} {b : Bd} {fp : Csv × Pass} {l : Line} (h : Describes mag fp.1 fp.2 b l) :
    l.time = halfway b fp := by
  have := h.2.2.1
  unfold halfway
  linarith

/-- C208 as far as it holds: the boundary file that `format_ssj_boundary_files` writes for a hemisphere and a boundary, with
at least two passes or none, is loaded by the class for the boundary with its default correction.  The records are those of
the passes whose time is in the window, in order: each has the time halfway between the crossings, cut to seconds, and the
spacecraft, quality, crossings and smallest circle of its pass, to half a thousandth of a degree.  Missing: a single pass. -/
theorem C208_loaded_partial {mag : ℝ → ℝ → ℝ → ℝ × ℝ} {files : List Csv} (hne : files ≠ [])
    (hw : ∀ f ∈ files, f.wide = true ∧ 2 ≤ f.rows.length) (hp : ∀ f ∈ files, ∀ p ∈ f.rows, p.hem = 1 ∨ p.hem = -1)
    {out : Dmsp.Out} (hout : Dmsp.format mag files = .ok out) {h : ℤ} {b : Bd}
    (hc : ∀ fp ∈ ofHem h (passes files), InCalendar (halfway b fp)) (h1 : (ofHem h (passes files)).length ≠ 1)
    {W : World Fn Kw} (hW : ReadsFloat W.float) {f : Name} (hfile : FileOf W f (out h b)) {A : Args Fn Kw}
    (hh : A.hem = 1 ∨ A.hem = -1) (hx : A.lat ≠ none) (hf : A.filename = .text f) (hd : lower f ≠ "default".toList)
    (hi : A.instrument = .text "dmsp-ssj".toList) (hr : A.rfunc = .dflt) (hk : A.kwargs = .dflt) :
    ∃ o, build b W A = .ok o ∧ o.rfunc = .array (List.replicate o.records W.circular) ∧ o.recInd = -1 ∧
      ∃ ts times : List ℤ, List.Forall₂ (fun fp t => Cut (halfway b fp) t) (ofHem h (passes files)) ts ∧
        o.dtime = some times ∧ o.records = times.length ∧ o.rows.length = o.records ∧
        List.Forall₂ (fun p q => p.1 = q.1 ∧ ∃ l, Describes mag p.2.1 p.2.2 b l ∧ RowOf l q.2)
          (windowRows A.stime A.etime (ts.zip (ofHem h (passes files)))) (times.zip o.rows) := by
  obtain ⟨out', e1, hl⟩ := Dmsp.C82_all_passes_partial mag files hne hw hp
  rw [hout] at e1
  cases e1
  have hl := hl h b
  unfold Lists at hl
  have hcal : ∀ l ∈ out h b, InCalendar l.time := by
    intro l hm
    obtain ⟨i, hi, rfl⟩ := List.getElem_of_mem hm
    obtain ⟨g1, g2⟩ := List.forall₂_iff_get.1 hl
    have := g2 i (g1 ▸ hi) hi
    simp only [List.get_eq_getElem] at this
    rw [time_halfway this]
    exact hc _ (List.getElem_mem _)
  obtain ⟨A', hA, hA', hb⟩ := build_eq b (W := W) hf hd hi hr
  have a1 : A'.hem = A.hem := by rw [hA']
  have a2 : A'.lat = A.lat := by rw [hA']
  have a3 : A'.filename = A.filename := by rw [hA']
  have a4 : A'.instrument = A.instrument := by rw [hA']
  have a5 : A'.kwargs = A.kwargs := by rw [hA']
  have a6 : A'.stime = A.stime := by rw [hA']
  have a7 : A'.etime = A.etime := by rw [hA']
  obtain ⟨o, o1, o2, o3, o4, o5, o6⟩ := lines_loaded (W := W) (A := A') (by rw [a1]; exact hh) (by rw [a2]; exact hx) (a3.trans hf) hd
    (a4.trans hi) hA (a5.trans hk) hfile hcal (by rw [← hl.length_eq]; exact h1)
  rw [a6, a7] at o3 o5 o6
  refine ⟨o, hb.trans o1, o2, o4, (out h b).map fun l => midTime l / 1000000 * 1000000, _, ?_, o5, by rw [o3, List.length_map],
    by rw [o6, o3, List.length_map], ?_⟩
  · rw [List.forall₂_map_right_iff]
    exact hl.imp fun fp l hd => by
      rw [← time_halfway hd]
      exact mid_cut l
  · rw [o6, List.zip_map', List.forall₂_map_right_iff]
    exact (window_pair A.stime A.etime hl _).imp fun p q hq => ⟨hq.1, q.2, hq.2, row_of hW q.2⟩

/-- C208: the header is a comment to the reader, and names the columns: read under the names of the header, each line gives
the values of its record. -/
theorem C208_header {float : Conv} (hf : ReadsFloat float) {l : Line} (h : InCalendar l.time) :
    cells ssjHead = [] ∧ ∃ head, ssjHead = '#' :: head ∧ RowOf l (recordOf float (words head) (cells (ssjLine l))) := by
  have e : words "sc date time r x y fom x_1 y_1 x_2 y_2\n".toList = ssjCols := by decide +kernel
  refine ⟨by decide +kernel, "sc date time r x y fom x_1 y_1 x_2 y_2\n".toList, by decide +kernel, ?_⟩
  rw [ssj_cells h, e]
  exact row_of hf l

/-- C208 is false for a single pass of a hemisphere: the file with it cannot be loaded. -/
theorem C208_one_pass_refuted {mag : ℝ → ℝ → ℝ → ℝ × ℝ} {files : List Csv} (hne : files ≠ [])
    (hw : ∀ f ∈ files, f.wide = true ∧ 2 ≤ f.rows.length) (hp : ∀ f ∈ files, ∀ p ∈ f.rows, p.hem = 1 ∨ p.hem = -1)
    {out : Dmsp.Out} (hout : Dmsp.format mag files = .ok out) {h : ℤ} {b : Bd}
    (hc : ∀ fp ∈ ofHem h (passes files), InCalendar (halfway b fp)) (h1 : (ofHem h (passes files)).length = 1)
    {W : World Fn Kw} {f : Name} (hfile : FileOf W f (out h b)) {A : Args Fn Kw}
    (hf : A.filename = .text f) (hd : lower f ≠ "default".toList)
    (hi : A.instrument = .text "dmsp-ssj".toList) (hr : A.rfunc = .dflt) : ∃ e, build b W A = .error e := by
  obtain ⟨out', e1, hl⟩ := Dmsp.C82_all_passes_partial mag files hne hw hp
  rw [hout] at e1
  cases e1
  have hl := hl h b
  unfold Lists at hl
  have hcal : ∀ l ∈ out h b, InCalendar l.time := by
    intro l hm
    obtain ⟨i, hi, rfl⟩ := List.getElem_of_mem hm
    obtain ⟨g1, g2⟩ := List.forall₂_iff_get.1 hl
    have := g2 i (g1 ▸ hi) hi
    simp only [List.get_eq_getElem] at this
    rw [time_halfway this]
    exact hc _ (List.getElem_mem _)
  obtain ⟨A', -, hA', hb⟩ := build_eq b (W := W) hf hd hi hr
  have hlow : lower "dmsp-ssj".toList = "dmsp-ssj".toList := by decide
  obtain ⟨e, he⟩ := C122_one_line_refuted (W := W) (A := A') (by rw [hA']; exact hf) hd hfile.1
    (i := "dmsp-ssj".toList) (by rw [hA']; exact hi) (by
      rw [hlow]
      have e0 : (instDefaults (some "dmsp-ssj".toList)).hlines = 1 := rfl
      rw [e0, data_lines hfile hcal, List.length_map, ← hl.length_eq]
      exact h1)
  exact ⟨e, hb.trans he⟩

/-! ### The crossings of a loaded pass -/

/-- The position of a location within 90 degrees of latitude is within 90 degrees of the pole. -/
theorem pos_le {c m : ℝ} (h0 : 0 ≤ c) (h1 : c ≤ 90) : |posX c m| ≤ 90 ∧ |posY c m| ≤ 90 := by
  unfold posX posY
  rw [abs_neg, abs_mul, abs_mul, abs_of_nonneg h0]
  have := Real.abs_sin_le_one (Coord.hourAngle m)
  have := Real.abs_cos_le_one (Coord.hourAngle m)
  constructor <;> nlinarith [abs_nonneg (Real.sin (Coord.hourAngle m)), abs_nonneg (Real.cos (Coord.hourAngle m))]

theorem circle_small {mag : ℝ → ℝ → ℝ → ℝ × ℝ} (hm : ∀ lat lon t, |(mag lat lon t).1| ≤ 90) {f : Csv} {p : Pass} {b : Bd}
    {l : Line} (h : Describes mag f p b l) : |l.r| ≤ 180 ∧ |l.x| ≤ 270 ∧ |l.y| ≤ 270 := by
  obtain ⟨-, -, -, h1, h2, h3, h4, h5⟩ := h
  have g1 := h1 _ _ rfl
  have g2 := h2 _ _ rfl
  have m1 := hm (p.lat b).1 (p.lon b).1 l.time
  have m2 := hm (p.lat b).2 (p.lon b).2 l.time
  have c1 := pos_le (m := (mag (p.lat b).1 (p.lon b).1 l.time).2) (sub_nonneg.2 m1)
    (by linarith [abs_nonneg (mag (p.lat b).1 (p.lon b).1 l.time).1])
  have c2 := pos_le (m := (mag (p.lat b).2 (p.lon b).2 l.time).2) (sub_nonneg.2 m2)
    (by linarith [abs_nonneg (mag (p.lat b).2 (p.lon b).2 l.time).1])
  rw [← g1.1, ← g1.2] at c1
  rw [← g2.1, ← g2.2] at c2
  obtain ⟨a1, a2⟩ := c1
  obtain ⟨a3, a4⟩ := c2
  rw [abs_le] at a1 a2 a3 a4
  have hr : l.r ≤ 180 := by
    have := h5 ((l.x1 + l.x2) / 2) ((l.y1 + l.y2) / 2) (Real.sqrt (((l.x1 - l.x2) / 2) ^ 2 + ((l.y1 - l.y2) / 2) ^ 2))
      ⟨Real.sqrt_nonneg _, by rw [Real.sq_sqrt (by positivity)]; ring⟩
      ⟨Real.sqrt_nonneg _, by rw [Real.sq_sqrt (by positivity)]; ring⟩
    refine this.trans (Real.sqrt_le_iff.2 ⟨by norm_num, ?_⟩)
    nlinarith [a1.1, a1.2, a2.1, a2.2, a3.1, a3.2, a4.1, a4.2, sq_nonneg (l.x1 + l.x2), sq_nonneg (l.y1 + l.y2)]
  have h0 := h3.1
  have hx : |l.x1 - l.x| ≤ l.r := abs_le_of_sq_le_sq (by nlinarith [h3.2, sq_nonneg (l.y1 - l.y)]) h0
  have hy : |l.y1 - l.y| ≤ l.r := abs_le_of_sq_le_sq (by nlinarith [h3.2, sq_nonneg (l.x1 - l.x)]) h0
  rw [abs_le] at hx hy
  refine ⟨abs_le.2 ⟨by linarith, hr⟩, abs_le.2 ⟨by linarith, by linarith⟩, abs_le.2 ⟨by linarith, by linarith⟩⟩

theorem about_close {a b : ℝ} (h : About a (some b)) (ha : |a| ≤ 270) : |b - a| ≤ 501 / 1000000 := by
  obtain ⟨b', e, h⟩ := h
  cases e
  refine h.trans ?_
  have : (2 : ℝ) ^ (-52 : ℤ) * (|a| + 1) ≤ 2 ^ (-52 : ℤ) * 271 := mul_le_mul_of_nonneg_left (by linarith) (by positivity)
  refine (add_le_add le_rfl this).trans ?_
  norm_num

/-- C208: both crossings of a loaded pass go to the reference latitude, whatever it is, to 0.00126 degrees divided by the
radius, of the distance between reference latitude and pole. -/
theorem C208_crossings {mag : ℝ → ℝ → ℝ → ℝ × ℝ} (hm : ∀ lat lon t, |(mag lat lon t).1| ≤ 90) {f : Csv} {p : Pass} {b : Bd}
    {l : Line} (h : Describes mag f p b l) {row : Row} (hrow : RowOf l row) {B : Rec} (hB : B.Valid)
    (hr : numAt "r".toList row = some B.r) (hr0 : 0 < B.r) (hrc : numAt "r_cent".toList row = some B.rCent)
    (hphi : numAt "phi_cent".toList row = some B.phiCent) (hrf : ∀ m, B.rf m = 0) {lat mlt : ℝ}
    (hl : mag (p.lat b).1 (p.lon b).1 (halfway b (f, p)) = (lat, mlt) ∨
      mag (p.lat b).2 (p.lon b).2 (halfway b (f, p)) = (lat, mlt)) (hh : InHem B.hem lat) :
    ∃ L M, normalPt B lat mlt = .ok (L, M, 0) ∧ |L - B.blat| ≤ (90 - |B.blat|) * (0.00126 / B.r) := by
  obtain ⟨b1, b2, b3⟩ := circle_small hm h
  obtain ⟨-, w1, -, -, -, -, -, x, y, w2, w3, w4, w5, w6, w7⟩ := hrow
  rw [hr] at w1
  rw [w6] at hrc
  rw [w7] at hphi
  have hload : LoadedAs B B.r x y := ⟨rfl, by
    rw [← Option.some.inj hrc, ← Option.some.inj hphi], hrf⟩
  have hcirc : onCircle l.x l.y l.r (posX (90 - |lat|) mlt) (posY (90 - |lat|) mlt) := by
    rw [← time_halfway (fp := (f, p)) h] at hl
    obtain ⟨-, -, -, h1, h2, h3, h4, -⟩ := h
    rcases hl with e | e
    · obtain ⟨q1, q2⟩ := h1 _ _ e
      rw [← q1, ← q2]
      exact h3
    · obtain ⟨q1, q2⟩ := h2 _ _ e
      rw [← q1, ← q2]
      exact h4
  obtain ⟨L, M, e1, e2⟩ := Dmsp.C55_rounded hB hload hr0 (about_close w1 (by linarith)) (about_close w4 b2) (about_close w5 b3)
    hh hcirc
  refine ⟨L, M, e1, e2.trans ?_⟩
  refine mul_le_mul_of_nonneg_left ?_ (by linarith [hB.pole])
  exact div_le_div_of_nonneg_right (by norm_num) hr0.le

/-! ### Example -/

/-- Two passes of the north on 5 May 2000, from dawn to dusk -/
noncomputable def exCsv : Csv :=
  ⟨16, 730245 * 86400, true, [⟨1, 4, fun _ => (10, 20), fun _ => (70, 75), fun _ => (90, 270)⟩,
    ⟨1, 3.5, fun _ => (6010, 6020), fun _ => (70, 75), fun _ => (90, 270)⟩]⟩

/-- Magnetic coordinates that are the geographic ones -/
noncomputable def exMag : ℝ → ℝ → ℝ → ℝ × ℝ := fun lat lon _ => (max (-90) (min 90 lat), lon / 15)

theorem exMag_lat (lat lon t : ℝ) : |(exMag lat lon t).1| ≤ 90 := by
  unfold exMag
  exact abs_le.2 ⟨le_max_left _ _, max_le (by norm_num) (min_le_left _ _)⟩

/-- A world with one file -/
noncomputable def exWorld (ls : List Line) : World Bool ℕ :=
  ⟨⟨fun y m d => y * 10000 + m * 100 + d, 20240101, fun _ => none⟩, [], "boundaries".toList, fun _ => true,
    fun _ => (ssjLines ls).map cells, exFloat, true, false, 0⟩

/-- Arguments for the file -/
def exArgs : Args Bool ℕ := ⟨.text "a.eab".toList, .text "dmsp-ssj".toList, 1, some 64, none, none, .dflt, .dflt⟩

/-- The hypotheses of C208 are met: both passes are loaded, and the crossing at dawn goes near the reference latitude. -/
example : ∃ out o, Dmsp.format exMag [exCsv] = .ok out ∧ build .eq (exWorld (out 1 .eq)) exArgs = .ok o ∧ o.rows.length = 2 := by
  have e : ofHem 1 (passes [exCsv]) = exCsv.rows.map fun p => (exCsv, p) := by
    unfold ofHem passes
    rw [List.filter_eq_self.2]
    · simp
    · intro fp hfp
      simp only [List.flatMap_cons, List.flatMap_nil, List.append_nil, exCsv, List.map_cons, List.map_nil, List.mem_cons,
        List.not_mem_nil, or_false] at hfp
      rcases hfp with rfl | rfl <;> simp
  have hw : ∀ f ∈ [exCsv], f.wide = true ∧ 2 ≤ f.rows.length := by
    intro f hf
    rw [List.mem_singleton] at hf
    subst hf
    exact ⟨rfl, le_rfl⟩
  have hp : ∀ f ∈ [exCsv], ∀ p ∈ f.rows, p.hem = 1 ∨ p.hem = -1 := by
    intro f hf p hp
    rw [List.mem_singleton] at hf
    subst hf
    simp only [exCsv, List.mem_cons, List.not_mem_nil, or_false] at hp
    rcases hp with rfl | rfl <;> exact .inl rfl
  have hms : maxStamp = 3652059 * 86400000000 + 86399999999 := by
    unfold maxStamp
    rw [stamp_eq]
    unfold maxOrd
    norm_num
  obtain ⟨out, h1, -⟩ := Dmsp.C82_all_passes_partial exMag [exCsv] (by simp) hw hp
  obtain ⟨o, h2, -, -, ts, times, h3, h4, h5, h6, h7⟩ := C208_loaded_partial (by simp) hw hp h1 (h := 1) (b := .eq) (by
      rw [e]
      intro fp hfp
      unfold InCalendar
      rw [hms]
      simp only [exCsv, List.map_cons, List.map_nil, List.mem_cons, List.not_mem_nil, or_false] at hfp
      rcases hfp with rfl | rfl <;> unfold halfway <;> norm_num) (by rw [e]; simp [exCsv])
    (W := exWorld (out 1 .eq)) exFloat_reads (f := "a.eab".toList) ⟨rfl, rfl⟩ (A := exArgs) (.inl rfl) (by simp [exArgs]) rfl
    (by decide) rfl rfl rfl
  refine ⟨out, o, h1, h2, ?_⟩
  have hl := h7.length_eq
  have hts := h3.length_eq
  have hwin : windowRows exArgs.stime exArgs.etime (ts.zip (ofHem 1 (passes [exCsv]))) = ts.zip (ofHem 1 (passes [exCsv])) := by
    unfold windowRows
    refine List.filter_eq_self.2 fun p _ => ?_
    simp [Coord.InWindow, exArgs]
  rw [hwin, List.length_zip, List.length_zip, ← hts, min_self, h6, h5, min_self] at hl
  rw [h6, h5, ← hl, e]
  simp [exCsv]

/-- A record with both crossings on its circle: from 20 degrees at dawn to 15 degrees at dusk -/
example : ∃ (l : Line) (row : Row) (B : Rec), Describes exMag exCsv ⟨1, 4, fun _ => (10, 20), fun _ => (70, 75), fun _ => (90, 270)⟩ .po l ∧
    RowOf l row ∧ B.Valid ∧ numAt "r".toList row = some B.r ∧ 0 < B.r ∧ numAt "r_cent".toList row = some B.rCent ∧
    numAt "phi_cent".toList row = some B.phiCent ∧ (∀ m, B.rf m = 0) ∧ InHem B.hem 70 := by
  obtain ⟨l, -, h⟩ := Dmsp.C55_circle exMag exCsv ⟨1, 4, fun _ => (10, 20), fun _ => (70, 75), fun _ => (90, 270)⟩ .po
  have hrow := row_of exFloat_reads l
  obtain ⟨-, ⟨r, w1, w2⟩, -, -, -, -, -, x, y, -, -, -, -, w6, w7⟩ := id hrow
  have hr : 0 < r := by
    have hb := (circle_small exMag_lat h).1
    have hc := about_close ⟨r, rfl, w2⟩ (by linarith)
    obtain ⟨-, -, -, h1, h2, ⟨h3, h4⟩, ⟨-, h5⟩, -⟩ := id h
    have a6 : Coord.hourAngle 6 = Real.pi / 2 := by unfold Coord.hourAngle; ring
    have a18 : Coord.hourAngle 18 = Real.pi / 2 + Real.pi := by unfold Coord.hourAngle; ring
    have x1 := (h1 70 6 (by unfold exMag; norm_num)).1
    have x2 := (h2 75 18 (by unfold exMag; norm_num)).1
    unfold posX at x1 x2
    rw [a6, Real.sin_pi_div_two] at x1
    rw [a18, Real.sin_add_pi, Real.sin_pi_div_two] at x2
    have y1 : |l.x1 - l.x| ≤ l.r := abs_le_of_sq_le_sq (by nlinarith [sq_nonneg (l.y1 - l.y)]) h3
    have y2 : |l.x2 - l.x| ≤ l.r := abs_le_of_sq_le_sq (by nlinarith [sq_nonneg (l.y2 - l.y)]) h3
    rw [abs_of_pos (show (0 : ℝ) < 70 by norm_num)] at x1
    rw [abs_of_pos (show (0 : ℝ) < 75 by norm_num)] at x2
    rw [abs_le] at y1 y2 hc
    linarith [y1.2, y2.1, hc.1]
  exact ⟨l, _, ⟨(polarCentre x y).2, (polarCentre x y).1, r, fun _ => 0, 1, 74⟩, h, hrow,
    ⟨.inl rfl, by norm_num, by rw [abs_lt]; constructor <;> norm_num⟩, w1, hr, w6, w7, fun _ => rfl, (Coord.sign_hem 70 (by norm_num)).1⟩

end Ocb.DmspText
