import Verif.Props.InitText
import Verif.Model.DualInit
import Verif.Lemmas.Cycle

/-!
# Properties of `__str__` of `OCBoundary` and `EABoundary`: C134
-/

set_option autoImplicit false

namespace Ocb.Init

open Ocb.Files (Name lower)
open Ocb.Vort (F Conv)
open Ocb.Smag (words)
open Ocb.Coord (FnArg InWindow windowRows setFns)

variable {Fn Kw : Type}

/-- The columns that are shown exist in every row. -/
theorem shown_columns (float : Conv) (inst : Option Name) (ws : List Name) (hw : (words (colsOf inst)).length ≤ ws.length)
    {k : Name} (hk : k = "phi_cent".toList ∨ k = "r_cent".toList ∨ k = "r".toList) :
    ∃ x, (recordOf float (words (colsOf inst)) ws).lookup k = some (.num x) := by
  have himage : ∀ ws : List Name, (words loadCols).length ≤ ws.length →
      ∃ x, (recordOf float (words loadCols) ws).lookup k = some (.num x) := by
    intro ws hw
    match ws, hw with
    | y :: s :: n :: p :: rc :: r :: a :: err :: fom :: rest, _ =>
      rcases hk with rfl | rfl | rfl <;> exact ⟨_, rfl⟩
  by_cases h1 : inst = some "image".toList
  · have hc : words (colsOf inst) = words loadCols := by rw [h1]; rfl
    rw [hc] at hw ⊢
    exact himage ws hw
  by_cases h2 : inst = some "ampere".toList
  · have hc : words (colsOf inst) = words "date time r x y fom".toList := by rw [h2]; rfl
    rw [hc] at hw ⊢
    match ws, hw with
    | date :: time :: r :: x :: y :: fom :: rest, _ => rcases hk with rfl | rfl | rfl <;> exact ⟨_, rfl⟩
  by_cases h3 : inst = some "dmsp-ssj".toList
  · have hc : words (colsOf inst) = words "sc date time r x y fom x_1 y_1 x_2 y_2".toList := by rw [h3]; rfl
    rw [hc] at hw ⊢
    match ws, hw with
    | sc :: date :: time :: r :: x :: y :: fom :: x1 :: y1 :: x2 :: y2 :: rest, _ =>
      rcases hk with rfl | rfl | rfl <;> exact ⟨_, rfl⟩
  have hc : words (colsOf inst) = words loadCols := by
    unfold colsOf instDefaults
    rw [if_neg h1, if_neg h2, if_neg h3]
    rfl
  rw [hc] at hw ⊢
  exact himage ws hw

/-- The line of record `i` gives its own time, centre and radius. -/
def TellsRecord (o : Obj Fn Kw) (times : List ℤ) (i : ℕ) (l : TLine) : Prop :=
  ∃ t phi rc r row, l = .record t phi rc r ∧ times[i]? = some t ∧ o.rows[i]? = some row ∧
    row.lookup "phi_cent".toList = some (.num phi) ∧ row.lookup "r_cent".toList = some (.num rc) ∧
    row.lookup "r".toList = some (.num r)

/-- Rows of a constructed object have the columns. -/
theorem rows_columns {W : World Fn Kw} {A : Args Fn Kw} {o : Obj Fn Kw} (h : ocbInit W A = .ok o) {f : Name}
    (hf : o.filename = some f) {row : Row} (hr : row ∈ o.rows) {k : Name}
    (hk : k = "phi_cent".toList ∨ k = "r_cent".toList ∨ k = "r".toList) : ∃ x, row.lookup k = some (.num x) := by
  obtain ⟨ts, -, h2, -, -, -, h6⟩ := records_from h hf rfl rfl
  rw [h6, List.mem_map] at hr
  obtain ⟨p, hp, rfl⟩ := hr
  refine shown_columns _ _ _ ?_ hk
  have hmem : p.2 ∈ dataLines W f (instDefaults o.instrument).hlines :=
    (List.of_mem_zip (List.mem_of_mem_filter hp)).2
  obtain ⟨i, hi, e⟩ := List.getElem_of_mem hmem
  rw [List.forall₂_iff_get] at h2
  have := (h2.2 i hi (h2.1 ▸ hi)).1
  rw [List.get_eq_getElem, e] at this
  exact this

theorem column_of {k : Name} {rows : List Row} {i : ℕ} {row : Row} {x : F} (h1 : rows[i]? = some row)
    (h2 : row.lookup k = some (.num x)) : column k rows i = .ok x := by
  unfold column
  simp only [h1, h2]

/-- A loaded object has one function and one dictionary per record. -/
theorem loaded_arrays {W : World Fn Kw} {A : Args Fn Kw} {o : Obj Fn Kw} (h : ocbInit W A = .ok o) {f : Name}
    (hf : o.filename = some f) : ∃ fs ks, o.rfunc = .array fs ∧ o.kwargs = .array ks ∧ fs.length = o.records ∧
      ks.length = o.records ∧ ∃ i, o.instrument = some i := by
  obtain ⟨x, -, hp, hl⟩ := filled h hf
  obtain ⟨rows, ts, fs, ks, -, -, -, h4, h5, h6⟩ := loadObj_inv hl (colsOf_flag _)
  have e1 : o.rfunc = .array fs := congrArg Obj.rfunc h6
  have e2 : o.kwargs = .array ks := congrArg Obj.kwargs h6
  have e3 := congrArg Obj.records h6
  simp only at e3
  obtain ⟨-, hfile⟩ := pick_low hp
  obtain ⟨i, hi⟩ := Option.ne_none_iff_exists'.1 (hfile f rfl).2.2
  exact ⟨fs, ks, e1, e2, by rw [e3]; exact setFns_length h4, by rw [e3]; exact setKw_length h5, i, hi⟩

/-- What the text should show: the file, the instrument and the reference latitude; for an object with records their
number, the times of the first and the last record, the first two and the last two records with their own values, and the
corrections of the records. -/
def Shows (mod short : Fn → Name) (text : Kw → Name) (o : Obj Fn Kw) (lines : List TLine) : Prop :=
  (o.filename = none → lines = [.noFile]) ∧
  ∀ f, o.filename = some f → ∃ i, o.instrument = some i ∧
    (o.records = 0 → lines = [.file f, .instrument i, .lat o.lat, .noData]) ∧
    (o.records ≠ 0 → ∃ (times : List ℤ) (first last : ℤ) (irep : List ℕ) (recs : List TLine) (fs : List Fn) (ks : List Kw),
      lines = .file f :: .instrument i :: .lat o.lat :: .span o.records first last ::
        (recs ++ (listed mod short text (fs.zip ks)).map fun p => .func p.1 p.2) ∧
      o.dtime = some times ∧ times.head? = some first ∧ times.getLast? = some last ∧
      irep.Pairwise (· < ·) ∧ (∀ i, i ∈ irep ↔ i < o.records ∧ (i < 2 ∨ o.records ≤ i + 2)) ∧
      List.Forall₂ (TellsRecord o times) irep recs ∧
      o.rfunc = .array fs ∧ o.kwargs = .array ks ∧ fs.length = o.records ∧ ks.length = o.records)

/-- C134: the text of every object that the constructor gives can be written, at any position of its cursor, and shows the
object; for the corrections see C125. -/
theorem C134_shows {W : World Fn Kw} {A : Args Fn Kw} {o : Obj Fn Kw} (h : ocbInit W A = .ok o) (c : ℤ)
    (mod short : Fn → Name) (text : Kw → Name) :
    ∃ lines, strObj mod short text { o with recInd := c } = .ok lines ∧ Shows mod short text o lines := by
  rcases C126_states h with h0 | ⟨f, times, hf, -, -, hd, hl, hrl⟩
  · refine ⟨[.noFile], ?_, fun _ => rfl, fun f hf => by rw [h0.1] at hf; cases hf⟩
    unfold strObj
    simp only [h0.1]
  · obtain ⟨fs, ks, e1, e2, e3, e4, i, hi⟩ := loaded_arrays h hf
    by_cases hz : o.records = 0
    · refine ⟨[.file f, .instrument i, .lat o.lat, .noData], ?_, fun h => (by rw [hf] at h; cases h), ?_⟩
      · unfold strObj
        simp only [hf, hi, hz]
        rfl
      · intro g hg
        rw [hf] at hg
        cases hg
        exact ⟨i, hi, fun _ => rfl, fun h => absurd hz h⟩
    · have hne : times ≠ [] := by rintro rfl; exact hz (by simpa using hl.symm)
      obtain ⟨a, b, ha, hb⟩ := ends_of hne
      obtain ⟨irep, s1, s2, s3⟩ := C125_shown (n := o.records) (by omega)
      have hrec : ∀ j ∈ irep, ∃ l, recordLine times o.rows j = .ok l := by
        intro j hj
        obtain ⟨hj, -⟩ := (s3 j).1 hj
        have hjr : j < o.rows.length := by omega
        obtain ⟨t, -, ht⟩ := Ocb.pyIdx_ok (l := times) (i := (j : ℤ)) (by omega) (by omega)
        have hm := List.getElem_mem hjr
        obtain ⟨p, hp⟩ := rows_columns h hf hm (.inl rfl)
        obtain ⟨rc, hrc⟩ := rows_columns h hf hm (.inr (.inl rfl))
        obtain ⟨r, hr⟩ := rows_columns h hf hm (.inr (.inr rfl))
        have hg := List.getElem?_eq_getElem hjr
        refine ⟨.record t p rc r, ?_⟩
        unfold recordLine
        simp only [ht, column_of hg hp, column_of hg hrc, column_of hg hr, bind, Except.bind, pure, Except.pure]
      obtain ⟨recs, hrecs⟩ := Ocb.mapE_ok hrec
      obtain ⟨q1, q2⟩ := Ocb.mapE_get hrecs
      have hfirst : Ocb.pyIdx times 0 = .ok a := by
        cases times with
        | nil => exact absurd rfl hne
        | cons x xs =>
          simp only [List.head?_cons, Option.some.injEq] at ha
          subst ha
          simp [Ocb.pyIdx, Ocb.pyGet]
      have hlast : Ocb.pyIdx times (-1) = .ok b := by
        have hpos := List.length_pos_iff.2 hne
        rw [List.getLast?_eq_getElem?] at hb
        have hx : (-1 + (times.length : ℤ)).toNat = times.length - 1 := by omega
        unfold Ocb.pyIdx Ocb.pyGet
        rw [if_neg (by omega), if_pos (by omega), hx, hb]
      refine ⟨.file f :: .instrument i :: .lat o.lat :: .span o.records a b ::
            (recs ++ (listed mod short text (fs.zip ks)).map fun p => .func p.1 p.2), ?_, fun h => (by rw [hf] at h; cases h), ?_⟩
      · unfold strObj dataText funcLines
        simp only [hf, hi, hz, hd, hfirst, hlast, s1, hrecs, e1, e2, bind, Except.bind, pure, Except.pure, if_false]
        rw [if_pos (by omega)]
        rfl
      · intro g hg
        rw [hf] at hg
        cases hg
        refine ⟨i, hi, fun h => absurd h hz, fun _ => ⟨times, a, b, irep, recs, fs, ks, rfl, hd, ha, hb, s2, s3, ?_, e1, e2, e3, e4⟩⟩
        rw [List.forall₂_iff_get]
        refine ⟨q1.symm, ?_⟩
        intro n hn hn'
        obtain ⟨l, hl1, hl2⟩ := q2 n irep[n] (List.getElem?_eq_getElem hn)
        have hj := (s3 irep[n]).1 (List.getElem_mem hn)
        have hjr : irep[n] < o.rows.length := by omega
        have hjt : irep[n] < times.length := by omega
        have hm := List.getElem_mem hjr
        obtain ⟨p, hp⟩ := rows_columns h hf hm (.inl rfl)
        obtain ⟨rc, hrc⟩ := rows_columns h hf hm (.inr (.inl rfl))
        obtain ⟨r, hr⟩ := rows_columns h hf hm (.inr (.inr rfl))
        have hg := List.getElem?_eq_getElem hjr
        obtain ⟨t, ht0, ht⟩ := Ocb.pyIdx_ok (l := times) (i := (irep[n] : ℤ)) (by omega) (by omega)
        unfold recordLine at hl2
        simp only [ht, column_of hg hp, column_of hg hrc, column_of hg hr, bind, Except.bind, pure, Except.pure] at hl2
        cases hl2
        rw [List.getElem?_eq_getElem hn'] at hl1
        exact ⟨t, p, rc, r, _, by simpa using hl1, by simpa using ht0, hg, hp, hrc, hr⟩

/-- C134 for `EABoundary` -/
theorem C134_eab {W : World Fn Kw} {A : Args Fn Kw} {o : Obj Fn Kw} (h : eabInit W A = .ok o) (c : ℤ)
    (mod short : Fn → Name) (text : Kw → Name) :
    ∃ lines, strObj mod short text { o with recInd := c } = .ok lines ∧ Shows mod short text o lines := by
  obtain ⟨A', h1, -⟩ := eab_calls h
  exact C134_shows h1 c mod short text

/-- Three records, of which all are shown -/
example (mod short : Bool → Name) (text : ℕ → Name) : ∃ o lines,
    ocbInit (demoWorld [(0, 2), (0, 4), (23, 58)]) (demoArgs none none) = .ok o ∧
    strObj mod short text o = .ok lines ∧ .span 3 (demoTime (0, 2)) (demoTime (23, 58)) ∈ lines := by
  obtain ⟨o, h1, h3, -, h2, -⟩ := demo_loads [(0, 2), (0, 4), (23, 58)] (by decide) (by decide) none none
  have h2' : o.dtime = some [demoTime (0, 2), demoTime (0, 4), demoTime (23, 58)] := by rw [h2]; simp [InWindow]
  have hr : o.records = 3 := by
    rcases C126_states h1 with h | ⟨g, times, -, -, -, h4, h5, -⟩
    · rw [h.1] at h3; cases h3
    · rw [h2'] at h4
      rw [← h5, ← Option.some.inj h4]
      rfl
  obtain ⟨lines, e1, -, e2⟩ := C134_shows h1 o.recInd mod short text
  obtain ⟨i, -, -, e3⟩ := e2 _ h3
  obtain ⟨times, a, b, irep, recs, fs, ks, rfl, e4, e5, e6, -⟩ := e3 (by omega)
  rw [h2'] at e4
  cases e4
  cases e5
  cases e6
  exact ⟨o, _, h1, e1, by rw [hr]; simp⟩

end Ocb.Init
