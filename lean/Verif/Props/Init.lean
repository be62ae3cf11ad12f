import Verif.Model.Init
import Verif.Props.Load
import Verif.Props.ConvertTime
import Verif.Props.Files
import Verif.Props.Vort

/-!
# Properties of the constructors `OCBoundary` and `EABoundary`: C122, C123, C126
-/

set_option autoImplicit false

namespace Ocb.Init

open Ocb.Files (Name lower Cal)
open Ocb.Text
open Ocb.Vort (F Conv)
open Ocb.Smag (words)
open Ocb.Coord (FnArg InWindow windowRows setFns)

variable {Fn Kw : Type}

/-! ### Loading -/

theorem load_fns {Row G : Type} {c e : G} {inst : String} {rf : FnArg G} {file : List (ℤ × Row)} {s u : Option ℤ}
    {l : Ocb.Coord.Loaded Row G} (h : Ocb.Coord.load c e inst rf file s u = .ok l) :
    setFns c e inst l.records rf = .ok l.rfunc := by
  unfold Ocb.Coord.load at h
  split at h
  · cases h
  · simp only at h
    split at h
    · cases h
    · next fs hfs =>
      split at h
      · cases h
      · cases h; exact hfs

/-- What `load` leaves in the object. -/
theorem loadObj_inv {W : World Fn Kw} {o o' : Obj Fn Kw} {file : Name} {hl : ℕ} {cols fmt : Name} {s e : Option ℤ}
    (h : loadObj W o file hl cols fmt s e = .ok o') (hf : flag (words cols) ≠ .missing) :
    ∃ rows times fs ks, readRows W.float (flag (words cols)) (words cols) ((W.lines file).drop hl) = .ok rows ∧
      rows.length ≠ 1 ∧ Ocb.mapE (rowTime (flag (words cols)) fmt) rows = .ok times ∧
      setFns W.circular W.elliptical (String.ofList (o.instrument.getD []))
        (windowRows s e (times.zip (rows.map (addCentre (words cols))))).length o.rfunc = .ok fs ∧
      setKw W.noKw (windowRows s e (times.zip (rows.map (addCentre (words cols))))).length o.kwargs = .ok ks ∧
      o' = { o with
        recInd := -1
        records := (windowRows s e (times.zip (rows.map (addCentre (words cols))))).length
        dtime := some ((windowRows s e (times.zip (rows.map (addCentre (words cols))))).map (·.1))
        rows := (windowRows s e (times.zip (rows.map (addCentre (words cols))))).map (·.2)
        rfunc := .array fs
        kwargs := .array ks } := by
  have key : ∀ fl, fl = flag (words cols) → (do
      let rows ← readRows W.float fl (words cols) ((W.lines file).drop hl)
      if rows.length = 1 then .error .indexError
      let times ← Ocb.mapE (rowTime fl fmt) rows
      let l ← Ocb.Coord.load W.circular W.elliptical (String.ofList (o.instrument.getD [])) o.rfunc
        (times.zip (rows.map (addCentre (words cols)))) s e
      let ks ← setKw W.noKw l.records o.kwargs
      return { o with recInd := l.recInd, records := l.records, dtime := some l.dtime, rows := l.rows,
                      rfunc := .array l.rfunc, kwargs := .array ks } : Except PyErr (Obj Fn Kw)) = .ok o' := by
    intro fl hfl
    subst hfl
    unfold loadObj at h
    simp only at h
    exact h
  have h := key _ rfl
  simp only [bind, Except.bind, pure, Except.pure] at h
  split at h
  · cases h
  · next rows hrows =>
    split_ifs at h with h1
    split at h
    · cases h
    · next times htimes =>
      split at h
      · cases h
      · next l hl' =>
        split at h
        · cases h
        · next ks hks =>
          cases h
          have hlen : (times.zip (rows.map (addCentre (words cols)))).length ≠ 1 := by
            intro hc
            rw [Ocb.Coord.load, if_pos hc] at hl'
            cases hl'
          have hw := Ocb.Coord.C33_load_window_partial W.circular W.elliptical (String.ofList (o.instrument.getD []))
            o.rfunc _ hlen s e
          have hfn := load_fns hl'
          rw [hl'] at hw
          obtain ⟨w1, w2, w3, w4, -⟩ := hw
          rw [w2] at hfn hks
          exact ⟨rows, times, l.rfunc, ks, hrows, h1, htimes, hfn, hks, by rw [w1, w2, w3, w4]⟩

/-- `load` succeeds. -/
theorem loadObj_ok {W : World Fn Kw} {o : Obj Fn Kw} {file : Name} {hl : ℕ} {cols fmt : Name} {s e : Option ℤ}
    (hf : flag (words cols) ≠ .missing) {rows : List Row} {times : List ℤ} {fs : List Fn} {ks : List Kw}
    (h1 : readRows W.float (flag (words cols)) (words cols) ((W.lines file).drop hl) = .ok rows) (h2 : rows.length ≠ 1)
    (h3 : Ocb.mapE (rowTime (flag (words cols)) fmt) rows = .ok times)
    (h4 : setFns W.circular W.elliptical (String.ofList (o.instrument.getD []))
        (windowRows s e (times.zip (rows.map (addCentre (words cols))))).length o.rfunc = .ok fs)
    (h5 : setKw W.noKw (windowRows s e (times.zip (rows.map (addCentre (words cols))))).length o.kwargs = .ok ks) :
    ∃ o', loadObj W o file hl cols fmt s e = .ok o' := by
  have hlt : times.length = rows.length := (Ocb.mapE_get h3).1
  have hlen : (times.zip (rows.map (addCentre (words cols)))).length ≠ 1 := by
    rw [List.length_zip, List.length_map, hlt]; simpa using h2
  have hw := Ocb.Coord.C33_load_window_partial W.circular W.elliptical (String.ofList (o.instrument.getD []))
    o.rfunc _ hlen s e
  cases hl' : Ocb.Coord.load W.circular W.elliptical (String.ofList (o.instrument.getD [])) o.rfunc
      (times.zip (rows.map (addCentre (words cols)))) s e with
  | error err =>
    rw [hl'] at hw
    rw [hw.2] at h4
    cases h4
  | ok l =>
    rw [hl'] at hw
    refine ⟨{ o with recInd := l.recInd, records := l.records, dtime := some l.dtime, rows := l.rows, rfunc := .array l.rfunc,
                     kwargs := .array ks }, ?_⟩
    unfold loadObj
    simp only [bind, Except.bind, pure, Except.pure, h1, h3, hl', hw.2.1, h5]
    rw [if_neg h2]

/-- The object before the file is read. -/
noncomputable def blank (A : Args Fn Kw) (p : Option Name × Option Name) (x : ℝ) : Obj Fn Kw :=
  ⟨p.1, p.2, A.hem, if sgn x ≠ A.hem then -x else x, 0, 0, none, [], (instDefaults p.2).minFom, (instDefaults p.2).maxFom,
    A.rfunc, A.kwargs⟩

/-- The columns that are read. -/
noncomputable def colsOf (inst : Option Name) : Name :=
  if (instDefaults inst).cols = [] then loadCols else (instDefaults inst).cols

theorem ocbInit_eq (W : World Fn Kw) (A : Args Fn Kw) {p : Option Name × Option Name} (hp : pick W A = .ok p)
    (hh : A.hem = 1 ∨ A.hem = -1) {x : ℝ} (hx : A.lat = some x) :
    ocbInit W A = match p.1 with
      | none => .ok (blank A p x)
      | some file => loadObj W (blank A p x) file (instDefaults p.2).hlines (colsOf p.2) (instDefaults p.2).fmt A.stime A.etime := by
  have hne : ¬ (A.hem ≠ 1 ∧ A.hem ≠ -1) := by omega
  unfold ocbInit
  simp only [bind, Except.bind, pure, Except.pure, hp, hx]
  rw [if_neg hne]
  cases hf : p.1 with
  | none => simp only [blank, hf]
  | some file =>
    simp only [colsOf]
    by_cases hc : (instDefaults p.2).cols = []
    · rw [if_neg (by simpa using hc), if_pos hc]
      have hd : (instDefaults p.2).hlines = 0 ∧ (instDefaults p.2).fmt = [] := by
        unfold instDefaults at hc ⊢
        split_ifs at hc ⊢ <;> first | exact ⟨rfl, rfl⟩ | exact absurd hc (by simp)
      rw [hd.1, hd.2]
      simp only [blank, hf]
    · rw [if_pos hc, if_neg hc]
      simp only [blank, hf]

theorem ocbInit_inv {W : World Fn Kw} {A : Args Fn Kw} {o : Obj Fn Kw} (h : ocbInit W A = .ok o) :
    ∃ p x, pick W A = .ok p ∧ (A.hem = 1 ∨ A.hem = -1) ∧ A.lat = some x := by
  unfold ocbInit at h
  simp only [bind, Except.bind, pure, Except.pure] at h
  split at h
  · cases h
  · next p hp =>
    by_cases h1 : A.hem ≠ 1 ∧ A.hem ≠ -1
    · rw [if_pos h1] at h; cases h
    rw [if_neg h1] at h
    cases hx : A.lat with
    | none => rw [hx] at h; cases h
    | some x => exact ⟨p, x, hp, by omega, rfl⟩

theorem colsOf_flag (inst : Option Name) : flag (words (colsOf inst)) ≠ .missing := by
  unfold colsOf
  have h : (instDefaults inst).cols = [] ∨ (instDefaults inst).cols = "date time r x y fom".toList ∨
      (instDefaults inst).cols = "sc date time r x y fom x_1 y_1 x_2 y_2".toList ∨ (instDefaults inst).cols = loadCols := by
    unfold instDefaults
    split_ifs
    · exact .inr (.inr (.inr rfl))
    · exact .inr (.inl rfl)
    · exact .inr (.inr (.inl rfl))
    · exact .inl rfl
  rcases h with h | h | h | h <;> rw [h] <;> decide

/-- An object that has a file was filled by `load`. -/
theorem filled {W : World Fn Kw} {A : Args Fn Kw} {o : Obj Fn Kw} (h : ocbInit W A = .ok o) {f : Name}
    (hf : o.filename = some f) : ∃ x, A.lat = some x ∧ pick W A = .ok (some f, o.instrument) ∧
      loadObj W (blank A (some f, o.instrument) x) f (instDefaults o.instrument).hlines (colsOf o.instrument)
        (instDefaults o.instrument).fmt A.stime A.etime = .ok o := by
  obtain ⟨p, x, hp, hh, hx⟩ := ocbInit_inv h
  rw [ocbInit_eq W A hp hh hx] at h
  obtain ⟨p1, p2⟩ := p
  cases p1 with
  | none =>
    simp only [Except.ok.injEq] at h
    rw [← h] at hf
    simp [blank] at hf
  | some g =>
    simp only at h
    obtain ⟨rows, times, fs, ks, -, -, -, -, -, e⟩ := loadObj_inv h (colsOf_flag _)
    have e1 : o.filename = some g := by rw [e]; rfl
    have e2 : o.instrument = p2 := by rw [e]; rfl
    rw [e1] at hf
    cases hf
    rw [e2]
    exact ⟨x, hx, hp, h⟩

theorem readRows_inv {float : Conv} {fl : Flag} {cols : List Name} {lines : List (List Name)} {rows : List Row}
    (h : readRows float fl cols lines = .ok rows) :
    rows = (lines.filter (· ≠ [])).map (fun ws => (cols.zip ws).map fun p => (p.1, cell float fl p.1 p.2)) ∧
    ∀ ws ∈ lines.filter (· ≠ []), cols.length ≤ ws.length := by
  unfold readRows at h
  split at h
  · next hn =>
    cases h
    rw [hn]
    simp
  · next r rs hn =>
    split_ifs at h with hc
    cases h
    rw [hn]
    refine ⟨rfl, ?_⟩
    simp only [Bool.and_eq_true, List.all_eq_true, beq_iff_eq, decide_eq_true_eq] at hc
    intro ws hw
    rcases List.mem_cons.1 hw with rfl | hw
    · exact hc.2
    · rw [hc.1 ws hw]; exact hc.2

open Classical in
theorem window_map {α β : Type} (s e : Option ℤ) (g : α → β) (ts : List ℤ) (l : List α) :
    windowRows s e (ts.zip (l.map g)) = (windowRows s e (ts.zip l)).map fun p => (p.1, g p.2) := by
  induction l generalizing ts with
  | nil => simp [windowRows]
  | cons a l ih =>
    cases ts with
    | nil => simp [windowRows]
    | cons t ts =>
      have := ih ts
      simp only [windowRows, List.map_cons, List.zip_cons_cons, List.filter_cons] at this ⊢
      split_ifs
      · rw [List.map_cons, this]
      · exact this

/-- The lines of the file that hold data: those after the header that are not empty. -/
def dataLines (W : World Fn Kw) (f : Name) (hlines : ℕ) : List (List Name) := ((W.lines f).drop hlines).filter (· ≠ [])

/-- The record that a line becomes. -/
noncomputable def recordOf (float : Conv) (cols : List Name) (ws : List Name) : Row :=
  addCentre cols ((cols.zip ws).map fun p => (p.1, cell float (flag cols) p.1 p.2))

/-- The records, their times and the lines they come from. -/
theorem records_from {W : World Fn Kw} {A : Args Fn Kw} {o : Obj Fn Kw} (h : ocbInit W A = .ok o) {f : Name}
    (hf : o.filename = some f) {d : Defaults} (hd : instDefaults o.instrument = d) {cols : List Name}
    (hc : words (colsOf o.instrument) = cols) :
    ∃ ts : List ℤ, (dataLines W f d.hlines).length ≠ 1 ∧
      List.Forall₂ (fun ws t => cols.length ≤ ws.length ∧ rowTime (flag cols) d.fmt
        ((cols.zip ws).map fun p => (p.1, cell W.float (flag cols) p.1 p.2)) = .ok t) (dataLines W f d.hlines) ts ∧
      o.records = (windowRows A.stime A.etime (ts.zip (dataLines W f d.hlines))).length ∧ o.recInd = -1 ∧
      o.dtime = some ((windowRows A.stime A.etime (ts.zip (dataLines W f d.hlines))).map (·.1)) ∧
      o.rows = (windowRows A.stime A.etime (ts.zip (dataLines W f d.hlines))).map fun p => recordOf W.float cols p.2 := by
  obtain ⟨x, -, -, hl⟩ := filled h hf
  obtain ⟨rows, times, fs, ks, h1, h2, h3, -, -, h6⟩ := loadObj_inv hl (colsOf_flag _)
  rw [hc, hd] at h1 h3
  rw [hc] at h6
  obtain ⟨r1, r2⟩ := readRows_inv h1
  have hdata : List.filter (· ≠ []) ((W.lines f).drop d.hlines) = dataLines W f d.hlines := rfl
  rw [hdata] at r1 r2
  obtain ⟨m1, m2⟩ := Ocb.mapE_get h3
  have hmap : rows.map (addCentre cols) = (dataLines W f d.hlines).map (recordOf W.float cols) := by
    rw [r1, List.map_map]; rfl
  rw [hmap, window_map] at h6
  refine ⟨times, by rw [r1, List.length_map] at h2; exact h2, ?_, by rw [h6]; simp, by rw [h6], by rw [h6]; simp, ?_⟩
  · rw [List.forall₂_iff_get]
    refine ⟨by rw [m1, r1, List.length_map], ?_⟩
    intro i hi hi'
    refine ⟨r2 _ (List.get_mem _ _), ?_⟩
    obtain ⟨t, ht1, ht2⟩ := m2 i (rows[i]'(by rw [← m1]; exact hi')) (List.getElem?_eq_getElem _)
    rw [List.getElem?_eq_getElem hi'] at ht1
    cases ht1
    refine Eq.trans ?_ ht2
    congr 1
    simp only [r1, List.getElem_map, List.get_eq_getElem]
  · rw [h6]; simp

/-! ### Times -/

theorem match_two {c : Char} {lo hi : ℕ} (hc : ∀ s, ∃ add, alts c s = field [2, 1] lo hi s ++ add) {n : ℕ} (h : lo ≤ n)
    (h' : n ≤ hi) (h2 : n < 100) {ts : List Tok} {f : Fields} {rest r : Name} (hm : matchToks ts rest = some (f, r)) :
    matchToks (.dir c :: ts) (pad2 n ++ rest) = some ((c, n) :: f, r) := by
  obtain ⟨add, e⟩ := hc (pad2 n ++ rest)
  obtain ⟨e1, e2, e3⟩ := pad2_spec h2
  have ht : (pad2 n ++ rest).take 2 = pad2 n := by rw [← e3, List.take_left]
  have hd : (pad2 n ++ rest).drop 2 = rest := by rw [← e3, List.drop_left]
  rw [matchToks, e, field, List.filterMap_cons, ht, hd, e1, e3, if_pos ⟨rfl, e2, h, h'⟩]
  exact firstSome_cons_some (by simp only [hm, Option.map_some])

theorem match_four {y : ℕ} (hy' : y ≤ 9999) {ts : List Tok} {f : Fields} {rest r : Name}
    (hm : matchToks ts rest = some (f, r)) : matchToks (.dir 'Y' :: ts) (pad4 y ++ rest) = some (('Y', y) :: f, r) := by
  obtain ⟨e1, e2, e3⟩ := pad4_spec (n := y) (by omega)
  have ht : (pad4 y ++ rest).take 4 = pad4 y := by rw [← e3, List.take_left]
  have hd : (pad4 y ++ rest).drop 4 = rest := by rw [← e3, List.drop_left]
  rw [matchToks, alts_Y, field, List.filterMap_cons, ht, hd, e1, e3, if_pos ⟨rfl, e2, Nat.zero_le _, hy'⟩]
  exact firstSome_cons_some (by simp only [hm, Option.map_some])

theorem compact_toks : toks "%Y%m%d %H:%M".toList = some [.dir 'Y', .dir 'm', .dir 'd', .ws, .dir 'H', .lit ':', .dir 'M'] := by
  decide

/-- A date written with eight digits -/
def eightDigits (y m d : ℕ) : Name := pad4 y ++ (pad2 m ++ pad2 d)

/-- The date and the time of day of the AMPERE files are read back exactly. -/
theorem compact_time {y m d : ℕ} (hv : Valid y m d) {h mi : ℕ} (hh : h < 24) (hm : mi < 60) :
    convertTime none none none none (some (eightDigits y m d)) (some (pad2 h ++ ':' :: pad2 mi)) "%Y%m%d %H:%M".toList
      = .ok (midnight y m d + (h * 60 + mi) * 60000000) := by
  obtain ⟨h1, h2, h3, h4, h5, h6⟩ := hv
  have hd31 := day_le h3 h4 h6
  have e1 : matchToks [.dir 'M'] (pad2 mi) = some ([('M', mi)], []) := by
    have := match_two (c := 'M') (fun t => ⟨[], by rw [alts_M, List.append_nil]⟩) (Nat.zero_le mi)
      (show mi ≤ 59 by omega) (by omega) (ts := []) (f := []) (rest := []) (r := []) rfl
    rwa [List.append_nil] at this
  have e2 := match_two (c := 'H') (fun t => ⟨[], by rw [alts_H, List.append_nil]⟩) (Nat.zero_le h)
    (show h ≤ 23 by omega) (by omega) (ts := .lit ':' :: [.dir 'M']) (rest := ':' :: pad2 mi) (by rw [match_lit, e1])
  have e3 : matchToks (.ws :: [.dir 'H', .lit ':', .dir 'M']) (' ' :: (pad2 h ++ ':' :: pad2 mi))
      = some ([('H', h), ('M', mi)], []) := by
    have hd : isDig (digitChar (h / 10)) = true := digitChar_dig (by omega)
    change matchToks _ (' ' :: digitChar (h / 10) :: _) = _
    rw [match_ws (dig_not_ws hd)]
    exact e2
  have e4 := match_two (c := 'd') (fun t => ⟨_, alts_d t⟩) h5 hd31 (by omega) e3
  have e5 := match_two (c := 'm') (fun t => ⟨[], by rw [alts_m, List.append_nil]⟩) h3 h4 (by omega) e4
  have e6 := match_four h2 e5
  have e7 : convertTime none none none none (some (eightDigits y m d)) (some (pad2 h ++ ':' :: pad2 mi)) "%Y%m%d %H:%M".toList
      = parseDay (eightDigits y m d ++ ' ' :: (pad2 h ++ ':' :: pad2 mi)) "%Y%m%d %H:%M".toList none := rfl
  have e8 : eightDigits y m d ++ ' ' :: (pad2 h ++ ':' :: pad2 mi)
      = pad4 y ++ (pad2 m ++ (pad2 d ++ ' ' :: (pad2 h ++ ':' :: pad2 mi))) := by
    unfold eightDigits
    simp only [List.append_assoc]
  rw [e7, e8]
  unfold parseDay strptime
  rw [compact_toks]
  simp only
  rw [if_pos (by decide), e6]
  simp only
  have hb : build [('Y', y), ('m', m), ('d', d), ('H', h), ('M', mi)] = .ok (stamp (ordinal y m d) h mi 0 0) := by
    have l1 : List.lookup 'j' [('Y', y), ('m', m), ('d', d), ('H', h), ('M', mi)] = none := rfl
    have l2 : getField [('Y', y), ('m', m), ('d', d), ('H', h), ('M', mi)] 'Y' 1900 = y := rfl
    have l3 : getField [('Y', y), ('m', m), ('d', d), ('H', h), ('M', mi)] 'm' 1 = m := rfl
    have l4 : getField [('Y', y), ('m', m), ('d', d), ('H', h), ('M', mi)] 'd' 1 = d := rfl
    have l5 : getField [('Y', y), ('m', m), ('d', d), ('H', h), ('M', mi)] 'S' 0 = 0 := rfl
    have l6 : getField [('Y', y), ('m', m), ('d', d), ('H', h), ('M', mi)] 'H' 0 = h := rfl
    have l7 : getField [('Y', y), ('m', m), ('d', d), ('H', h), ('M', mi)] 'M' 0 = mi := rfl
    have l8 : getField [('Y', y), ('m', m), ('d', d), ('H', h), ('M', mi)] 'f' 0 = 0 := rfl
    have hv : Valid y m d := ⟨h1, h2, h3, h4, h5, h6⟩
    unfold build dateOf
    simp only [l1, l2, l3, l4, l5, l6, l7, l8, hv, if_true]
    rfl
  have hr : stamp (ordinal y m d) h mi 0 0 = midnight y m d + (h * 60 + mi) * 60000000 := by
    rw [stamp_eq]
    unfold midnight
    push_cast
    ring
  rw [hb, hr]

/-! ### C122: the records are those of the file -/

/-- The number a text stands for; what is no number is NaN. -/
def number (float : Conv) (w : Name) : F := (float w).getD none

/-- The point with the polar coordinates is the one with the Cartesian coordinates: x towards dawn, y towards noon, the
angle from midnight through dawn in degrees.  NaN in either coordinate makes both polar coordinates NaN. -/
def SamePoint (x y r phi : F) : Prop :=
  match x, y with
  | some x, some y => ∃ r' phi', r = some r' ∧ phi = some phi' ∧ 0 ≤ r' ∧ r' ^ 2 = x ^ 2 + y ^ 2 ∧ 0 ≤ phi' ∧ phi' < 360 ∧
      x = r' * Real.sin (phi' * Real.pi / 180) ∧ y = -(r' * Real.cos (phi' * Real.pi / 180))
  | _, _ => r = none ∧ phi = none

/-- The time of a line of an IMAGE file: the year, and the seconds since its start. -/
def ImageTime (float : Conv) (ws : List Name) (t : ℤ) : Prop :=
  ∀ (y : ℕ) (w : Name) (s : ℝ), 1000 ≤ y → y < 9999 → ws[0]? = some (dec y) → ws[1]? = some w → float w = some (some s) →
    |(t : ℝ) - (jan1 y + s * 1000000)| ≤ 500000 ∧ ∀ n : ℕ, s = n → t = jan1 y + n * 1000000

/-- The values of a line of an IMAGE file. -/
def ImageLine (float : Conv) (ws : List Name) (row : Row) : Prop :=
  ∃ year soy sectors phi rc r a err fom rest, ws = year :: soy :: sectors :: phi :: rc :: r :: a :: err :: fom :: rest ∧
    numAt "phi_cent".toList row = number float phi ∧ numAt "r_cent".toList row = number float rc ∧
    numAt "r".toList row = number float r ∧ numAt "a".toList row = number float a ∧
    numAt "r_err".toList row = number float err ∧ numAt "fom".toList row = number float fom ∧
    ∀ n : ℕ, sectors = dec n → intAt "num_sectors".toList row = some (n : ℤ)

/-- The time of a line of an AMPERE file: a date of eight digits, hours and minutes. -/
def AmpereTime (ws : List Name) (t : ℤ) : Prop :=
  ∀ y m d h mi : ℕ, Valid y m d → h < 24 → mi < 60 → ws[0]? = some (eightDigits y m d) →
    ws[1]? = some (pad2 h ++ ':' :: pad2 mi) → t = midnight y m d + (h * 60 + mi) * 60000000

/-- The values of a line of an AMPERE file. -/
def AmpereLine (float : Conv) (ws : List Name) (row : Row) : Prop :=
  ∃ date time r x y fom rest, ws = date :: time :: r :: x :: y :: fom :: rest ∧
    numAt "r".toList row = number float r ∧ numAt "x".toList row = number float x ∧ numAt "y".toList row = number float y ∧
    numAt "fom".toList row = number float fom ∧
    SamePoint (number float x) (number float y) (numAt "r_cent".toList row) (numAt "phi_cent".toList row)

/-- The time of a line of a DMSP SSJ file: the second and third words are date and time of day. -/
def DmspTime (ws : List Name) (t : ℤ) : Prop :=
  ∀ y m d h mi s : ℕ, Valid y m d → h < 24 → mi < 60 → s < 60 → ws[1]? = some (dateText y m d) →
    ws[2]? = some (pad2 h ++ ':' :: (pad2 mi ++ ':' :: pad2 s)) → t = midnight y m d + ((h * 60 + mi) * 60 + s) * 1000000

/-- The values of a line of a DMSP SSJ file. -/
def DmspLine (float : Conv) (ws : List Name) (row : Row) : Prop :=
  ∃ sc date time r x y fom x1 y1 x2 y2 rest, ws = sc :: date :: time :: r :: x :: y :: fom :: x1 :: y1 :: x2 :: y2 :: rest ∧
    numAt "sc".toList row = number float sc ∧ numAt "r".toList row = number float r ∧
    numAt "x".toList row = number float x ∧ numAt "y".toList row = number float y ∧
    numAt "fom".toList row = number float fom ∧ numAt "x_1".toList row = number float x1 ∧
    numAt "y_1".toList row = number float y1 ∧ numAt "x_2".toList row = number float x2 ∧
    numAt "y_2".toList row = number float y2 ∧
    SamePoint (number float x) (number float y) (numAt "r_cent".toList row) (numAt "phi_cent".toList row)

/-- The object holds the lines of the window, in the order of the file, with their times and values, and the cursor is
before the first record. -/
def Holds (o : Obj Fn Kw) (stime etime : Option ℤ) (lines : List (List Name)) (Time : List Name → ℤ → Prop)
    (Line : List Name → Row → Prop) : Prop :=
  ∃ (ts : List ℤ) (times : List ℤ), List.Forall₂ Time lines ts ∧ o.dtime = some times ∧ o.records = times.length ∧
    o.rows.length = o.records ∧ o.recInd = -1 ∧
    List.Forall₂ (fun p q => p.1 = q.1 ∧ Line p.2 q.2) (windowRows stime etime (ts.zip lines)) (times.zip o.rows)

theorem holds_of {W : World Fn Kw} {A : Args Fn Kw} {o : Obj Fn Kw} (h : ocbInit W A = .ok o) {f : Name}
    (hf : o.filename = some f) {d : Defaults} (hd : instDefaults o.instrument = d) {cols : List Name}
    (hc : words (colsOf o.instrument) = cols) {Time : List Name → ℤ → Prop} {Line : List Name → Row → Prop}
    (ht : ∀ ws t, cols.length ≤ ws.length → rowTime (flag cols) d.fmt
        ((cols.zip ws).map fun p => (p.1, cell W.float (flag cols) p.1 p.2)) = .ok t → Time ws t)
    (hl : ∀ ws, cols.length ≤ ws.length → Line ws (recordOf W.float cols ws)) :
    Holds o A.stime A.etime (dataLines W f d.hlines) Time Line := by
  obtain ⟨ts, -, h2, h3, h4, h5, h6⟩ := records_from h hf hd hc
  refine ⟨ts, _, h2.imp fun ws t hw => ht ws t hw.1 hw.2, h5, by rw [h3, List.length_map], by rw [h6, h3, List.length_map], h4, ?_⟩
  rw [h6, List.zip_map', List.forall₂_map_right_iff, List.forall₂_same]
  intro p hp
  refine ⟨rfl, hl _ ?_⟩
  have hmem : p.2 ∈ dataLines W f d.hlines := (List.of_mem_zip (List.mem_of_mem_filter hp)).2
  obtain ⟨i, hi, e⟩ := List.getElem_of_mem hmem
  rw [List.forall₂_iff_get] at h2
  have := (h2.2 i hi (h2.1 ▸ hi)).1
  rw [List.get_eq_getElem, e] at this
  exact this

theorem soy_time {y : ℕ} (hy : 1000 ≤ y) (hy' : y < 9999) {s : ℝ} {t : ℤ} (h : yearSoy y s = .ok t) :
    |(t : ℝ) - (jan1 y + s * 1000000)| ≤ 500000 ∧ ∀ n : ℕ, s = n → t = jan1 y + n * 1000000 := by
  have h0 : 0 ≤ s := by
    by_contra hc
    rw [C07_outside y s (.inr (.inr (.inl (by linarith))))] at h
    cases h
  have h1 : s < 366 * 86400 := by
    by_contra hc
    rw [C07_outside y s (.inr (.inr (.inr (by linarith))))] at h
    cases h
  have hl : y < 9999 ∨ s < 365 * 86400 := .inl hy'
  constructor
  · obtain ⟨t', e1, e2⟩ := C07_fraction_partial hy hy'.le h0 h1 hl (by
      intro k hk
      rw [C07_fraction_refuted hy hy'.le h0 h1 k hk] at h
      cases h)
    rw [h] at e1
    cases e1
    exact e2
  · rintro n rfl
    have := C07_whole hy hy'.le n (by exact_mod_cast h1) (hl.imp_right fun hx => by exact_mod_cast hx)
    rw [h] at this
    cases this
    rfl

theorem image_time (float : Conv) (fmt : Name) (ws : List Name) (t : ℤ) (hw : 9 ≤ ws.length)
    (h : rowTime .soy fmt (((words loadCols).zip ws).map fun p => (p.1, cell float .soy p.1 p.2)) = .ok t) :
    ImageTime float ws t := by
  match ws, hw with
  | year :: soy :: w2 :: w3 :: w4 :: w5 :: w6 :: w7 :: w8 :: rest, _ =>
    intro y w s hy hy' h0 h1 hs
    cases h0
    cases h1
    have e1 : numAt "soy".toList (((words loadCols).zip (dec y :: soy :: w2 :: w3 :: w4 :: w5 :: w6 :: w7 :: w8 :: rest)).map
        fun p => (p.1, cell float .soy p.1 p.2)) = number float soy := rfl
    have e2 : intAt "year".toList (((words loadCols).zip (dec y :: soy :: w2 :: w3 :: w4 :: w5 :: w6 :: w7 :: w8 :: rest)).map
        fun p => (p.1, cell float .soy p.1 p.2)) = some (match readInt (dec y) with
          | .ok z => z
          | .error _ => -1) := rfl
    rw [Ocb.Vort.readInt_dec] at e2
    have e3 : number float soy = some s := by rw [number, hs]; rfl
    unfold rowTime at h
    simp only [e1, e2, e3] at h
    exact soy_time hy hy' h

theorem centre_same (x y : F) (p : Option (ℝ × ℝ)) (hp : p = match x, y with
      | some x, some y => some (Ocb.Coord.polarCentre x y)
      | _, _ => none) : SamePoint x y (p.map Prod.fst) (p.map Prod.snd) := by
  subst hp
  cases x with
  | none => exact ⟨rfl, rfl⟩
  | some x =>
    cases y with
    | none => exact ⟨rfl, rfl⟩
    | some y =>
      obtain ⟨r, phi, e, h⟩ := Ocb.Coord.C32_polar_centre x y
      refine ⟨r, phi, ?_, ?_, h⟩
      · simp only [e, Option.map_some]
      · simp only [e, Option.map_some]

theorem image_line (float : Conv) (ws : List Name) (hw : 9 ≤ ws.length) :
    ImageLine float ws (recordOf float (words loadCols) ws) := by
  match ws, hw with
  | year :: soy :: w2 :: w3 :: w4 :: w5 :: w6 :: w7 :: w8 :: rest, _ =>
    refine ⟨year, soy, w2, w3, w4, w5, w6, w7, w8, rest, rfl, rfl, rfl, rfl, rfl, rfl, rfl, ?_⟩
    rintro n rfl
    have e : intAt "num_sectors".toList (recordOf float (words loadCols)
        (year :: soy :: dec n :: w3 :: w4 :: w5 :: w6 :: w7 :: w8 :: rest)) = some (match readInt (dec n) with
          | .ok z => z
          | .error _ => -1) := rfl
    rw [e, Ocb.Vort.readInt_dec]

/-- C122 for the IMAGE instruments -/
theorem C122_image {W : World Fn Kw} {A : Args Fn Kw} {o : Obj Fn Kw} (h : ocbInit W A = .ok o) {f : Name}
    (hf : o.filename = some f) (hi : o.instrument = some "image".toList) :
    Holds o A.stime A.etime (dataLines W f 0) (ImageTime W.float) (ImageLine W.float) := by
  have hc : words (colsOf o.instrument) = words loadCols := by rw [hi]; rfl
  exact holds_of h hf (d := instDefaults (some "image".toList)) (by rw [hi]) hc
    (fun ws t hw ht => image_time W.float _ ws t hw ht) (fun ws hw => image_line W.float ws hw)

/-- C122 for instruments that are not known: they are read as IMAGE files. -/
theorem C122_other {W : World Fn Kw} {A : Args Fn Kw} {o : Obj Fn Kw} (h : ocbInit W A = .ok o) {f : Name}
    (hf : o.filename = some f) (h1 : o.instrument ≠ some "ampere".toList) (h2 : o.instrument ≠ some "dmsp-ssj".toList) :
    Holds o A.stime A.etime (dataLines W f 0) (ImageTime W.float) (ImageLine W.float) := by
  by_cases hi : o.instrument = some "image".toList
  · exact C122_image h hf hi
  have hd : instDefaults o.instrument = ⟨0, [], [], none, none⟩ := by
    unfold instDefaults
    rw [if_neg hi, if_neg h1, if_neg h2]
  have hc : words (colsOf o.instrument) = words loadCols := by
    unfold colsOf
    rw [hd]
    rfl
  exact holds_of h hf hd hc (fun ws t hw ht => image_time W.float _ ws t hw ht) (fun ws hw => image_line W.float ws hw)

theorem take_short {w : Name} (h : w.length ≤ 50) : w.take 50 = w := List.take_of_length_le h

/-- C122 for AMPERE -/
theorem C122_ampere {W : World Fn Kw} {A : Args Fn Kw} {o : Obj Fn Kw} (h : ocbInit W A = .ok o) {f : Name}
    (hf : o.filename = some f) (hi : o.instrument = some "ampere".toList) :
    Holds o A.stime A.etime (dataLines W f 0) AmpereTime (AmpereLine W.float) := by
  have hd : instDefaults o.instrument = ⟨0, "date time r x y fom".toList, "%Y%m%d %H:%M".toList, some (15 / 100), none⟩ := by
    rw [hi]; rfl
  have hc : words (colsOf o.instrument) = words "date time r x y fom".toList := by
    unfold colsOf; rw [hd]; rfl
  refine holds_of h hf hd hc ?_ ?_
  · intro ws t hw ht
    match ws, hw with
    | date :: time :: r :: x :: y' :: fom :: rest, _ =>
      intro y m d hh mi hv h1 h2 e0 e1
      cases e0
      cases e1
      have e : rowTime (flag (words "date time r x y fom".toList)) "%Y%m%d %H:%M".toList
          (((words "date time r x y fom".toList).zip (eightDigits y m d :: (pad2 hh ++ ':' :: pad2 mi) :: r :: x :: y' :: fom ::
            rest)).map fun p => (p.1, cell W.float (flag (words "date time r x y fom".toList)) p.1 p.2))
          = convertTime none none none none (some ((eightDigits y m d).take 50)) (some ((pad2 hh ++ ':' :: pad2 mi).take 50))
            "%Y%m%d %H:%M".toList := rfl
      simp only at ht
      rw [e, take_short, take_short, compact_time hv h1 h2] at ht
      · cases ht; rfl
      · simp [pad2]
      · simp [eightDigits, pad2, pad4]
  · intro ws hw
    match ws, hw with
    | date :: time :: r :: x :: y' :: fom :: rest, _ =>
      exact ⟨date, time, r, x, y', fom, rest, rfl, rfl, rfl, rfl, rfl, centre_same _ _ _ rfl⟩

/-- C122 for DMSP SSJ -/
theorem C122_dmsp {W : World Fn Kw} {A : Args Fn Kw} {o : Obj Fn Kw} (h : ocbInit W A = .ok o) {f : Name}
    (hf : o.filename = some f) (hi : o.instrument = some "dmsp-ssj".toList) :
    Holds o A.stime A.etime (dataLines W f 1) DmspTime (DmspLine W.float) := by
  have hd : instDefaults o.instrument = ⟨1, "sc date time r x y fom x_1 y_1 x_2 y_2".toList, "%Y-%m-%d %H:%M:%S".toList,
      some 3, none⟩ := by
    rw [hi]; rfl
  have hc : words (colsOf o.instrument) = words "sc date time r x y fom x_1 y_1 x_2 y_2".toList := by
    unfold colsOf; rw [hd]; rfl
  refine holds_of h hf hd hc ?_ ?_
  · intro ws t hw ht
    match ws, hw with
    | sc :: date :: time :: r :: x :: y' :: fom :: x1 :: y1 :: x2 :: y2 :: rest, _ =>
      intro y m d hh mi s hv h1 h2 h3 e0 e1
      cases e0
      cases e1
      have e : rowTime (flag (words "sc date time r x y fom x_1 y_1 x_2 y_2".toList)) "%Y-%m-%d %H:%M:%S".toList
          (((words "sc date time r x y fom x_1 y_1 x_2 y_2".toList).zip (sc :: dateText y m d :: (pad2 hh ++ ':' :: (pad2 mi ++
            ':' :: pad2 s)) :: r :: x :: y' :: fom :: x1 :: y1 :: x2 :: y2 :: rest)).map fun p =>
            (p.1, cell W.float (flag (words "sc date time r x y fom x_1 y_1 x_2 y_2".toList)) p.1 p.2))
          = convertTime none none none none (some ((dateText y m d).take 50))
            (some ((pad2 hh ++ ':' :: (pad2 mi ++ ':' :: pad2 s)).take 50)) "%Y-%m-%d %H:%M:%S".toList := rfl
      simp only at ht
      rw [e, take_short, take_short, C84_default_format hv h1 h2 h3] at ht
      · cases ht; rfl
      · simp [pad2]
      · simp [dateText, pad2, pad4]
  · intro ws hw
    match ws, hw with
    | sc :: date :: time :: r :: x :: y' :: fom :: x1 :: y1 :: x2 :: y2 :: rest, _ =>
      exact ⟨sc, date, time, r, x, y', fom, x1, y1, x2, y2, rest, rfl, rfl, rfl, rfl, rfl, rfl, rfl, rfl, rfl, rfl,
        centre_same _ _ _ rfl⟩

/-! ### Which file and instrument -/

/-- C122: a named file is the file of the object when it is usable, and the instrument is the named one in small letters. -/
theorem C122_named {W : World Fn Kw} {A : Args Fn Kw} {o : Obj Fn Kw} (h : ocbInit W A = .ok o) {f i : Name}
    (hf : A.filename = .text f) (hd : lower f ≠ "default".toList) (hi : A.instrument = .text i) :
    o.instrument = some (lower i) ∧ (W.good f = true → o.filename = some f) ∧ (W.good f = false → o.filename = none) := by
  have hp : pick W A = .ok ((some f).filter W.good, some (lower i)) := by
    unfold pick
    simp only [hi, hf]
    rw [if_neg hd]
    rfl
  obtain ⟨p, x, hp', hh, hx⟩ := ocbInit_inv h
  rw [hp] at hp'
  cases hp'
  rw [ocbInit_eq W A hp hh hx] at h
  cases hg : W.good f with
  | false =>
    rw [Option.filter_some_neg (by simp [hg])] at h
    simp only [Except.ok.injEq] at h
    subst h
    exact ⟨rfl, by simp, fun _ => rfl⟩
  | true =>
    rw [Option.filter_some_pos hg] at h
    obtain ⟨rows, times, fs, ks, -, -, -, -, -, e⟩ := loadObj_inv h (colsOf_flag _)
    refine ⟨?_, fun _ => ?_, by simp⟩
    · rw [e]; rfl
    · rw [e]; rfl

/-- The object has no data: no file, no records, no times, the cursor at its start. -/
def Empty (o : Obj Fn Kw) : Prop :=
  o.filename = none ∧ o.records = 0 ∧ o.recInd = 0 ∧ o.dtime = none ∧ o.rows = []

/-- C122: a default file is one that answers the request by hemisphere, instrument and times, and the object takes the
instrument that goes with it; without such a file the object has no data. -/
theorem C122_default {W : World Fn Kw} {A : Args Fn Kw} {o : Obj Fn Kw} (h : ocbInit W A = .ok o) {f i : Name}
    (hf : A.filename = .text f) (hd : lower f = "default".toList) (hi : A.instrument = .text i)
    (hw : Ocb.Files.WellNamed W.cal "ocb".toList W.listing) (hk : Ocb.Files.KnownRequest (lower i)) :
    (∃ n inst out, Ocb.Files.Answers W.cal W.listing A.stime A.etime A.hem (lower i) "ocb".toList n inst ∧
      Ocb.Files.Reported inst out ∧ o.instrument = some out ∧
      (W.good (W.dir ++ '/' :: n) = true → o.filename = some (W.dir ++ '/' :: n)) ∧
      (W.good (W.dir ++ '/' :: n) = false → Empty o)) ∨
    (Empty o ∧ o.instrument = some (lower i) ∧
      ∀ n inst, ¬ Ocb.Files.Answers W.cal W.listing A.stime A.etime A.hem (lower i) "ocb".toList n inst) := by
  obtain ⟨p, x, hp, hh, hx⟩ := ocbInit_inv h
  rw [ocbInit_eq W A hp hh hx] at h
  have hp' : pick W A = (defaultFile W A (lower i) "ocb".toList).map fun p => (p.1.filter W.good, some p.2) := by
    unfold pick
    simp only [hi, hf]
    rw [if_pos hd]
  rw [hp'] at hp
  unfold defaultFile at hp
  rcases Ocb.Files.C53_default_file (bound := "ocb".toList) rfl hw A.stime A.etime A.hem (lower i) hk with
    ⟨n, inst, out, h1, h2, h3⟩ | ⟨h1, h2⟩
  · left
    rw [h1] at hp
    simp only [Except.map, Option.map_some] at hp
    refine ⟨n, inst, out, h2, h3, ?_⟩
    cases hg : W.good (W.dir ++ '/' :: n) with
    | false =>
      rw [Option.filter_some_neg (by simp [hg])] at hp
      cases hp
      simp only [Except.ok.injEq] at h
      subst h
      exact ⟨rfl, by simp, fun _ => ⟨rfl, rfl, rfl, rfl, rfl⟩⟩
    | true =>
      rw [Option.filter_some_pos hg] at hp
      cases hp
      obtain ⟨rows, times, fs, ks, -, -, -, -, -, e⟩ := loadObj_inv h (colsOf_flag _)
      refine ⟨?_, fun _ => ?_, by simp⟩
      · rw [e]; rfl
      · rw [e]; rfl
  · right
    rw [h1] at hp
    cases hp
    simp only [Option.map_none, Option.filter_none, Except.ok.injEq] at h
    subst h
    exact ⟨⟨rfl, rfl, rfl, rfl, rfl⟩, rfl, h2⟩

/-- C122: the limits for good records are the published ones of the instrument, and for other instruments none. -/
theorem C122_limits {W : World Fn Kw} {A : Args Fn Kw} {o : Obj Fn Kw} (h : ocbInit W A = .ok o) :
    (o.instrument = some "image".toList → o.minFom = none ∧ o.maxFom = some 5) ∧
    (o.instrument = some "ampere".toList → o.minFom = some (15 / 100) ∧ o.maxFom = none) ∧
    (o.instrument = some "dmsp-ssj".toList → o.minFom = some 3 ∧ o.maxFom = none) ∧
    (o.instrument ≠ some "image".toList → o.instrument ≠ some "ampere".toList → o.instrument ≠ some "dmsp-ssj".toList →
      o.minFom = none ∧ o.maxFom = none) := by
  have key : o.minFom = (instDefaults o.instrument).minFom ∧ o.maxFom = (instDefaults o.instrument).maxFom := by
    obtain ⟨p, x, hp, hh, hx⟩ := ocbInit_inv h
    rw [ocbInit_eq W A hp hh hx] at h
    obtain ⟨p1, p2⟩ := p
    cases p1 with
    | none => simp only [Except.ok.injEq] at h; subst h; exact ⟨rfl, rfl⟩
    | some g =>
      obtain ⟨rows, times, fs, ks, -, -, -, -, -, e⟩ := loadObj_inv h (colsOf_flag _)
      rw [e]
      exact ⟨rfl, rfl⟩
  rw [key.1, key.2]
  refine ⟨?_, ?_, ?_, ?_⟩
  · intro e; rw [e]; exact ⟨rfl, rfl⟩
  · intro e; rw [e]; exact ⟨rfl, rfl⟩
  · intro e; rw [e]; exact ⟨rfl, rfl⟩
  · intro e1 e2 e3
    unfold instDefaults
    rw [if_neg e1, if_neg e2, if_neg e3]
    exact ⟨rfl, rfl⟩

/-- C34 for the whole constructor: whatever is loaded, the reference latitude has the given size and lies in the given
hemisphere. -/
theorem C34_constructor {W : World Fn Kw} {A : Args Fn Kw} {o : Obj Fn Kw} (h : ocbInit W A = .ok o) :
    (A.hem = 1 ∨ A.hem = -1) ∧ o.hem = A.hem ∧
    ∃ x, A.lat = some x ∧ |o.lat| = |x| ∧ (x ≠ 0 → 0 < (A.hem : ℝ) * o.lat) := by
  obtain ⟨p, x, hp, hh, hx⟩ := ocbInit_inv h
  rw [ocbInit_eq W A hp hh hx] at h
  have e1 : o.hem = A.hem ∧ o.lat = if sgn x ≠ A.hem then -x else x := by
    obtain ⟨p1, p2⟩ := p
    cases p1 with
    | none => simp only [Except.ok.injEq] at h; subst h; exact ⟨rfl, rfl⟩
    | some g =>
      obtain ⟨rows, times, fs, ks, -, -, -, -, -, e⟩ := loadObj_inv h (colsOf_flag _)
      rw [e]
      exact ⟨rfl, rfl⟩
  refine ⟨hh, e1.1, x, hx, ?_, ?_⟩
  · rw [e1.2]; split_ifs
    · exact abs_neg x
    · rfl
  · intro hx0
    rw [e1.2]
    rcases lt_or_gt_of_ne hx0 with hn | hp'
    · have hs : sgn x = -1 := by unfold sgn; rw [if_neg (by linarith), if_pos hn]
      rcases hh with e | e <;> rw [e, hs]
      · rw [if_pos (by decide)]; push_cast; linarith
      · rw [if_neg (by decide)]; push_cast; linarith
    · have hs : sgn x = 1 := by unfold sgn; rw [if_pos hp']
      rcases hh with e | e <;> rw [e, hs]
      · rw [if_neg (by decide)]; push_cast; linarith
      · rw [if_pos (by decide)]; push_cast; linarith

/-! ### C126: unusable files and instruments -/

/-- C126: without a file, with a file name or an instrument that is no text, or with a file that cannot be used, the
constructor gives an object without data. -/
theorem C126_no_data (W : World Fn Kw) (A : Args Fn Kw) (hh : A.hem = 1 ∨ A.hem = -1) (hx : A.lat ≠ none)
    (hu : (∀ i, A.instrument ≠ .text i) ∨ (∀ f, A.filename ≠ .text f) ∨
      ∃ f, A.filename = .text f ∧ lower f ≠ "default".toList ∧ W.good f = false) :
    ∃ o, ocbInit W A = .ok o ∧ Empty o := by
  obtain ⟨x, hx⟩ := Option.ne_none_iff_exists'.1 hx
  have hp : ∃ i, pick W A = .ok (none, i) := by
    unfold pick
    cases hi : A.instrument with
    | none => exact ⟨none, rfl⟩
    | other => exact ⟨none, rfl⟩
    | text i =>
      rcases hu with h | h | ⟨f, h1, h2, h3⟩
      · exact absurd hi (h i)
      · cases hf : A.filename with
        | none => exact ⟨some (lower i), rfl⟩
        | other => exact ⟨some (lower i), rfl⟩
        | text f => exact absurd hf (h f)
      · refine ⟨some (lower i), ?_⟩
        simp only [h1]
        rw [if_neg h2]
        simp only [Except.map]
        rw [Option.filter_some_neg (by simp [h3])]
  obtain ⟨i, hp⟩ := hp
  rw [ocbInit_eq W A hp hh hx]
  exact ⟨_, rfl, rfl, rfl, rfl, rfl, rfl⟩

/-- C126: an object without a file has no data, and one with a file has the cursor before the first record and as many
times and values as records. -/
theorem C126_states {W : World Fn Kw} {A : Args Fn Kw} {o : Obj Fn Kw} (h : ocbInit W A = .ok o) :
    Empty o ∨ ∃ f times, o.filename = some f ∧ W.good f = true ∧ o.recInd = -1 ∧ o.dtime = some times ∧
      times.length = o.records ∧ o.rows.length = o.records := by
  cases hf : o.filename with
  | none =>
    left
    obtain ⟨p, x, hp, hh, hx⟩ := ocbInit_inv h
    rw [ocbInit_eq W A hp hh hx] at h
    obtain ⟨p1, p2⟩ := p
    cases p1 with
    | none => simp only [Except.ok.injEq] at h; subst h; exact ⟨rfl, rfl, rfl, rfl, rfl⟩
    | some g =>
      obtain ⟨rows, times, fs, ks, -, -, -, -, -, e⟩ := loadObj_inv h (colsOf_flag _)
      rw [e] at hf
      cases hf
  | some f =>
    right
    obtain ⟨x, -, hp, -⟩ := filled h hf
    obtain ⟨ts, -, -, h3, h4, h5, h6⟩ := records_from h hf rfl rfl
    refine ⟨f, _, rfl, ?_, h4, h5, by rw [h3, List.length_map], by rw [h3, h6, List.length_map]⟩
    unfold pick at hp
    split at hp
    · simp only [Except.map] at hp
      split at hp
      · cases hp
      · simp only [Except.ok.injEq, Prod.mk.injEq] at hp
        exact (Option.filter_eq_some_iff.1 hp.1).2
    · simp at hp

/-! ### Small letters -/

theorem low_low (c : Char) : c.toLower.toLower = c.toLower := by
  apply Char.ext
  have hA : 'A'.val = 65 := rfl
  have hZ : 'Z'.val = 90 := rfl
  have ha : 'a'.val = 97 := rfl
  have hlt := c.val.toNat_lt
  unfold Char.toLower
  simp only [hA, hZ, ha, ge_iff_le, UInt32.le_iff_toNat_le, UInt32.reduceToNat, UInt32.reduceSub]
  by_cases h1 : 65 ≤ c.val.toNat ∧ c.val.toNat ≤ 90
  · have h3 : (c.val + 32).toNat = c.val.toNat + 32 := by
      simp only [UInt32.toNat_add, UInt32.reduceToNat]; omega
    have h4 : ¬ (65 ≤ (c.val + 32).toNat ∧ (c.val + 32).toNat ≤ 90) := by omega
    simp only [h1, and_self, dite_true, h4, dite_false]
  · simp only [h1, dite_false]

theorem lower_lower (n : Name) : lower (lower n) = lower n := by
  simp only [lower, List.map_map]
  exact List.map_congr_left fun c _ => low_low c

theorem lower_append (a b : Name) : lower (a ++ b) = lower a ++ lower b := List.map_append

theorem lower_prefix {a b n : Name} (h : lower n = a ++ b) : lower a = a := by
  have h2 : lower (a ++ b) = a ++ b := by rw [← h, lower_lower]
  rw [lower_append] at h2
  exact (List.append_inj h2 (by simp [lower])).1

/-! ### C123: the instruments of `EABoundary` -/

/-- The instruments that `EABoundary` documents -/
def EabDocumented (i : Name) : Prop :=
  i ∈ ["image".toList, "dmsp-ssj".toList, "si12".toList, "si13".toList, "wic".toList, []]

/-- C123 is false: without a correction function, an instrument other than five names is refused, among them the
documented si12, si13 and wic, whatever the file. -/
theorem C123_documented_refuted (W : World Fn Kw) (A : Args Fn Kw) (hr : A.rfunc = .dflt) {i : Name}
    (hi : A.instrument = .text i) (h : i ∈ ["si12".toList, "si13".toList, "wic".toList]) :
    EabDocumented i ∧ eabInit W A = .error .valueError := by
  refine ⟨by unfold EabDocumented; simp only [List.mem_cons, List.not_mem_nil, or_false] at h ⊢; tauto, ?_⟩
  have hn : ¬ (i = [] ∨ i = "default".toList ∨ i = "image".toList ∨ i = "dmsp-ssj".toList ∨ i = "ampere".toList) := by
    simp only [List.mem_cons, List.not_mem_nil, or_false] at h
    rcases h with rfl | rfl | rfl <;> decide
  unfold eabInit eabRfunc
  simp only [hr, hi, eabDefault]
  rw [if_neg hn]
  rfl

/-- C123 is false for names in capital letters, which `OCBoundary` accepts: without a correction function they are
refused. -/
theorem C123_capital_refuted (W : World Fn Kw) (A : Args Fn Kw) (hr : A.rfunc = .dflt) {i : Name}
    (hi : A.instrument = .text i) (h : lower i ∈ ["image".toList, "dmsp-ssj".toList, "ampere".toList]) (hc : lower i ≠ i) :
    eabInit W A = .error .valueError := by
  have hn : ¬ (i = [] ∨ i = "default".toList ∨ i = "image".toList ∨ i = "dmsp-ssj".toList ∨ i = "ampere".toList) := by
    rintro (rfl | rfl | rfl | rfl | rfl)
    · exact hc rfl
    · exact hc (by decide)
    · exact hc (by decide)
    · exact hc (by decide)
    · exact hc (by decide)
  unfold eabInit eabRfunc
  simp only [hr, hi, eabDefault]
  rw [if_neg hn]
  rfl

/-- C123 is false also with a correction function: the default file is looked up with the name as it is given, so that
for capital letters there is none, and the object has no data. -/
theorem C123_capital_default_refuted (W : World Fn Kw) (A : Args Fn Kw) (hr : A.rfunc ≠ .dflt) {f i : Name}
    (hh : A.hem = 1 ∨ A.hem = -1) (hx : A.lat ≠ none) (hf : A.filename = .text f) (hd : lower f = "default".toList)
    (hi : A.instrument = .text i) (hc : lower i ≠ i) (hw : Ocb.Files.WellNamed W.cal "eab".toList W.listing) :
    ∃ o, eabInit W A = .ok o ∧ Empty o := by
  have hg : Ocb.Files.getDefault W.cal W.listing A.stime A.etime A.hem i "eab".toList = .ok (none, i) := by
    obtain ⟨l, -, h1, h2, -⟩ := Ocb.Files.good_spec (bound := "eab".toList) rfl hw A.stime A.etime A.hem i
    have hl : l = [] := by
      cases l with
      | nil => rfl
      | cons x l =>
        obtain ⟨-, s, e, -, -, ⟨⟨h, rest, ext, e1, -⟩⟩, ha, -⟩ := h2 x (by simp)
        have hinst : lower (Ocb.Files.infoOf W.cal x.1).inst = (Ocb.Files.infoOf W.cal x.1).inst := by
          simp only [Ocb.Files.joined, List.append_assoc] at e1
          exact lower_prefix e1
        rcases ha with ⟨rfl, -⟩ | ⟨rfl, -⟩ | ⟨rfl, -⟩ | ⟨-, -, e2⟩
        · exact absurd rfl hc
        · exact absurd (by decide) hc
        · exact absurd (by decide) hc
        · rw [e2] at hinst
          exact absurd hinst hc
    subst hl
    unfold Ocb.Files.getDefault
    rw [h1]
    rfl
  have e : eabInit W A = ocbInit W { A with filename := .none, instrument := .text i } := by
    have hr' : eabRfunc W A = .ok A.rfunc := by
      unfold eabRfunc
      cases hq : A.rfunc with
      | dflt => exact absurd hq hr
      | _ => rfl
    unfold eabInit
    simp only [bind, Except.bind, hr', hf, hi]
    rw [if_pos hd]
    unfold defaultFile
    simp only [hg, Except.map, Option.map_none]
  rw [e]
  exact C126_no_data W _ hh hx (.inr (.inl fun f => by simp))

/-- The arguments with which `EABoundary` calls `OCBoundary` -/
theorem eab_calls {W : World Fn Kw} {A : Args Fn Kw} {o : Obj Fn Kw} (h : eabInit W A = .ok o) :
    ∃ A' : Args Fn Kw, ocbInit W A' = .ok o ∧ A'.hem = A.hem ∧ A'.lat = A.lat ∧ A'.stime = A.stime ∧ A'.etime = A.etime ∧
      A'.kwargs = A.kwargs ∧ (A.rfunc = .dflt → ∀ i, A.instrument = .text i → A'.rfunc = .one W.circular) ∧
      (A.rfunc ≠ .dflt → A'.rfunc = A.rfunc) := by
  unfold eabInit at h
  simp only [bind, Except.bind] at h
  split at h
  · cases h
  · next rf hrf =>
    have h1 : A.rfunc = .dflt → ∀ i, A.instrument = .text i → rf = .one W.circular := by
      intro e i hi
      unfold eabRfunc at hrf
      rw [e] at hrf
      simp only [hi, eabDefault] at hrf
      split_ifs at hrf
      cases hrf
      rfl
    have h2 : A.rfunc ≠ .dflt → rf = A.rfunc := by
      intro hr
      unfold eabRfunc at hrf
      cases hq : A.rfunc with
      | dflt => exact absurd hq hr
      | _ => rw [hq] at hrf; cases hrf; rfl
    split at h
    · split_ifs at h
      · split at h
        · cases h
        · exact ⟨_, h, rfl, rfl, rfl, rfl, rfl, h1, h2⟩
      · exact ⟨_, h, rfl, rfl, rfl, rfl, rfl, h1, h2⟩
    · exact ⟨_, h, rfl, rfl, rfl, rfl, rfl, h1, h2⟩

/-- C123 as far as it holds: the empty name, image, dmsp-ssj, ampere and default are accepted and stand for the circular
correction.  Missing: si12, si13 and wic (see `C123_documented_refuted`) and names in capital letters. -/
theorem C123_accepted_partial (W : World Fn Kw) (A : Args Fn Kw) (hr : A.rfunc = .dflt) {i : Name}
    (hi : A.instrument = .text i)
    (h : i ∈ [[], "image".toList, "dmsp-ssj".toList, "ampere".toList, "default".toList]) :
    eabInit W A = eabInit W { A with rfunc := .one W.circular } := by
  have e1 : eabRfunc W A = .ok (.one W.circular) := by
    unfold eabRfunc
    simp only [hr, hi, eabDefault]
    rw [if_pos (by simp only [List.mem_cons, List.not_mem_nil, or_false] at h; tauto)]
  have e2 : eabRfunc W { A with rfunc := .one W.circular } = .ok (.one W.circular) := rfl
  unfold eabInit
  rw [e1, e2]

/-- C123: with a correction function and the name of a file, every instrument does what it does for `OCBoundary`. -/
theorem C123_as_ocb (W : World Fn Kw) (A : Args Fn Kw) (hr : A.rfunc ≠ .dflt)
    (hf : ∀ f, A.filename = .text f → lower f ≠ "default".toList) : eabInit W A = ocbInit W A := by
  have hr' : eabRfunc W A = .ok A.rfunc := by
    unfold eabRfunc
    cases hq : A.rfunc with
    | dflt => exact absurd hq hr
    | _ => rfl
  unfold eabInit
  simp only [bind, Except.bind, hr']
  split
  · next f i e1 e2 => rw [if_neg (hf f e1)]
  · rfl

/-- C123: without a correction function the records of an equatorward boundary are all used as circles, also those of
AMPERE. -/
theorem C123_circular {W : World Fn Kw} {A : Args Fn Kw} {o : Obj Fn Kw} (h : eabInit W A = .ok o) (hr : A.rfunc = .dflt)
    {f : Name} (hf : o.filename = some f) : o.rfunc = .array (List.replicate o.records W.circular) := by
  obtain ⟨A', h1, -, -, -, -, -, h7, -⟩ := eab_calls h
  obtain ⟨x, -, hp, hl⟩ := filled h1 hf
  have hi : ∃ i, A.instrument = .text i := by
    cases hi : A.instrument with
    | text i => exact ⟨i, rfl⟩
    | none =>
      exfalso
      have e : eabInit W A = ocbInit W { A with rfunc := .dflt } := by
        unfold eabInit eabRfunc
        simp only [hr, hi, eabDefault, bind, Except.bind]
        cases A.filename <;> rfl
      rw [e] at h
      obtain ⟨-, -, hp, -⟩ := filled h hf
      simp [pick, hi] at hp
    | other =>
      exfalso
      have e : eabInit W A = ocbInit W { A with rfunc := .dflt } := by
        unfold eabInit eabRfunc
        simp only [hr, hi, eabDefault, bind, Except.bind]
        cases A.filename <;> rfl
      rw [e] at h
      obtain ⟨-, -, hp, -⟩ := filled h hf
      simp [pick, hi] at hp
  obtain ⟨i, hi⟩ := hi
  obtain ⟨rows, times, fs, ks, -, -, -, h4, -, h6⟩ := loadObj_inv hl (colsOf_flag _)
  have e : (blank A' (some f, o.instrument) x).rfunc = .one W.circular := h7 hr i hi
  rw [e] at h4
  simp only [setFns, Except.ok.injEq] at h4
  rw [h6]
  simp only [h4]

/-- C122 for `EABoundary` -/
theorem C122_eab {W : World Fn Kw} {A : Args Fn Kw} {o : Obj Fn Kw} (h : eabInit W A = .ok o) {f : Name}
    (hf : o.filename = some f) :
    (o.instrument = some "ampere".toList →
      Holds o A.stime A.etime (dataLines W f 0) AmpereTime (AmpereLine W.float)) ∧
    (o.instrument = some "dmsp-ssj".toList →
      Holds o A.stime A.etime (dataLines W f 1) DmspTime (DmspLine W.float)) ∧
    (o.instrument ≠ some "ampere".toList → o.instrument ≠ some "dmsp-ssj".toList →
      Holds o A.stime A.etime (dataLines W f 0) (ImageTime W.float) (ImageLine W.float)) := by
  obtain ⟨A', h1, -, -, h4, h5, -⟩ := eab_calls h
  rw [← h4, ← h5]
  exact ⟨C122_ampere h1 hf, C122_dmsp h1 hf, C122_other h1 hf⟩

/-! ### When loading succeeds -/

theorem readRows_ok {float : Conv} {fl : Flag} {cols : List Name} {lines : List (List Name)} {k : ℕ} (hk : cols.length ≤ k)
    (h : ∀ ws ∈ lines.filter (· ≠ []), ws.length = k) :
    readRows float fl cols lines
      = .ok ((lines.filter (· ≠ [])).map (fun ws => (cols.zip ws).map fun p => (p.1, cell float fl p.1 p.2))) := by
  unfold readRows
  cases hl : lines.filter (· ≠ []) with
  | nil => rfl
  | cons r rs =>
    rw [hl] at h
    simp only
    rw [if_pos]
    simp only [Bool.and_eq_true, List.all_eq_true, beq_iff_eq, decide_eq_true_eq]
    exact ⟨fun x hx => by rw [h x (by simp [hx]), h r (by simp)], by rw [h r (by simp)]; exact hk⟩

/-- The arguments for the correction that suit every file of the instrument. -/
def SuitsAll (A : Args Fn Kw) (inst : Name) : Prop :=
  (A.rfunc = .dflt ∧ inst ∈ ["image".toList, "ampere".toList, "dmsp-ssj".toList] ∨ ∃ g, A.rfunc = .one g) ∧
  (A.kwargs = .dflt ∨ ∃ k, A.kwargs = .one k)

theorem succeeds_of {W : World Fn Kw} {A : Args Fn Kw} (hh : A.hem = 1 ∨ A.hem = -1) (hx : A.lat ≠ none) {f i : Name}
    (hf : A.filename = .text f) (hd : lower f ≠ "default".toList) (hg : W.good f = true) (hi : A.instrument = .text i)
    (hs : SuitsAll A (lower i)) {d : Defaults} (hd' : instDefaults (some (lower i)) = d) {cols : List Name}
    (hc : words (colsOf (some (lower i))) = cols) (h1 : (dataLines W f d.hlines).length ≠ 1) {k : ℕ} (hk : cols.length ≤ k)
    (hw : ∀ ws ∈ dataLines W f d.hlines, ws.length = k)
    (ht : ∀ ws ∈ dataLines W f d.hlines, ∃ t, rowTime (flag cols) d.fmt
        ((cols.zip ws).map fun p => (p.1, cell W.float (flag cols) p.1 p.2)) = .ok t) : ∃ o, ocbInit W A = .ok o := by
  obtain ⟨x, hx⟩ := Option.ne_none_iff_exists'.1 hx
  have hp : pick W A = .ok (some f, some (lower i)) := by
    unfold pick
    simp only [hi, hf]
    rw [if_neg hd]
    simp only [Except.map]
    rw [Option.filter_some_pos hg]
  rw [ocbInit_eq W A hp hh hx]
  have hrows := readRows_ok (float := W.float) (fl := flag cols) hk hw
  obtain ⟨times, htimes⟩ := Ocb.mapE_ok (f := rowTime (flag cols) d.fmt)
    (l := (((W.lines f).drop d.hlines).filter (· ≠ [])).map
      (fun ws => (cols.zip ws).map fun p => (p.1, cell W.float (flag cols) p.1 p.2))) (by
    intro r hr
    obtain ⟨ws, hws, rfl⟩ := List.mem_map.1 hr
    exact ht ws hws)
  simp only
  subst hc
  subst hd'
  have hfn : ∀ n, ∃ fs, setFns W.circular W.elliptical (String.ofList (lower i)) n A.rfunc = .ok fs := by
    intro n
    rcases hs.1 with ⟨e1, e2⟩ | ⟨g, e⟩
    · rw [e1]
      simp only [List.mem_cons, List.not_mem_nil, or_false] at e2
      rcases e2 with e2 | e2 | e2 <;> rw [e2]
      · exact ⟨List.replicate n W.circular, rfl⟩
      · exact ⟨List.replicate n W.elliptical, rfl⟩
      · exact ⟨List.replicate n W.circular, rfl⟩
    · rw [e]; exact ⟨_, rfl⟩
  have hkw : ∀ n, ∃ ks, setKw W.noKw n A.kwargs = .ok ks := by
    intro n
    rcases hs.2 with e | ⟨g, e⟩ <;> rw [e] <;> exact ⟨_, rfl⟩
  obtain ⟨fs, hfs⟩ := hfn (windowRows A.stime A.etime (times.zip (((((W.lines f).drop
    (instDefaults (some (lower i))).hlines).filter (· ≠ [])).map (fun ws => ((words (colsOf (some (lower i)))).zip ws).map
    fun p => (p.1, cell W.float (flag (words (colsOf (some (lower i))))) p.1 p.2))).map (addCentre (words (colsOf (some (lower i)))))))).length
  obtain ⟨ks, hks⟩ := hkw (windowRows A.stime A.etime (times.zip (((((W.lines f).drop
    (instDefaults (some (lower i))).hlines).filter (· ≠ [])).map (fun ws => ((words (colsOf (some (lower i)))).zip ws).map
    fun p => (p.1, cell W.float (flag (words (colsOf (some (lower i))))) p.1 p.2))).map (addCentre (words (colsOf (some (lower i)))))))).length
  exact loadObj_ok (colsOf_flag _) hrows (by rw [List.length_map]; exact h1) htimes hfs hks

/-- A year and whole seconds of it -/
def ImageStamp (float : Conv) (ws : List Name) : Prop :=
  ∃ (y n : ℕ) (w : Name), 1000 ≤ y ∧ y < 9999 ∧ n < 366 * 86400 ∧ ws[0]? = some (dec y) ∧ ws[1]? = some w ∧
    float w = some (some (n : ℝ))

/-- A date and a time of day in the form of AMPERE -/
def AmpereStamp (ws : List Name) : Prop :=
  ∃ y m d h mi : ℕ, Valid y m d ∧ h < 24 ∧ mi < 60 ∧ ws[0]? = some (eightDigits y m d) ∧
    ws[1]? = some (pad2 h ++ ':' :: pad2 mi)

/-- A date and a time of day in the form of DMSP SSJ -/
def DmspStamp (ws : List Name) : Prop :=
  ∃ y m d h mi s : ℕ, Valid y m d ∧ h < 24 ∧ mi < 60 ∧ s < 60 ∧ ws[1]? = some (dateText y m d) ∧
    ws[2]? = some (pad2 h ++ ':' :: (pad2 mi ++ ':' :: pad2 s))

/-- C122: a usable file with lines of one length, enough columns and times in the form of the instrument, but not with
one line, is loaded. -/
theorem C122_succeeds {W : World Fn Kw} {A : Args Fn Kw} (hh : A.hem = 1 ∨ A.hem = -1) (hx : A.lat ≠ none) {f i : Name}
    (hf : A.filename = .text f) (hd : lower f ≠ "default".toList) (hg : W.good f = true) (hi : A.instrument = .text i)
    (hs : SuitsAll A (lower i)) {k : ℕ}
    (h : (lower i = "image".toList ∧ (dataLines W f 0).length ≠ 1 ∧ 9 ≤ k ∧
        ∀ ws ∈ dataLines W f 0, ws.length = k ∧ ImageStamp W.float ws) ∨
      (lower i = "ampere".toList ∧ (dataLines W f 0).length ≠ 1 ∧ 6 ≤ k ∧
        ∀ ws ∈ dataLines W f 0, ws.length = k ∧ AmpereStamp ws) ∨
      (lower i = "dmsp-ssj".toList ∧ (dataLines W f 1).length ≠ 1 ∧ 11 ≤ k ∧
        ∀ ws ∈ dataLines W f 1, ws.length = k ∧ DmspStamp ws)) : ∃ o, ocbInit W A = .ok o := by
  rcases h with ⟨hi', h1, hk, hw⟩ | ⟨hi', h1, hk, hw⟩ | ⟨hi', h1, hk, hw⟩
  · refine succeeds_of hh hx hf hd hg hi hs (d := instDefaults (some "image".toList)) (by rw [hi'])
      (cols := words loadCols) (by rw [hi']; rfl) h1 (k := k) hk (fun ws hws => (hw ws hws).1) ?_
    intro ws hws
    obtain ⟨hl, y, n, w, hy, hy', hn, e0, e1, e2⟩ := hw ws hws
    match ws, (show 9 ≤ ws.length by omega) with
    | year :: soy :: w2 :: w3 :: w4 :: w5 :: w6 :: w7 :: w8 :: rest, _ =>
      cases e0
      obtain rfl : soy = w := by simpa using e1
      have e : rowTime (flag (words loadCols)) (instDefaults (some "image".toList)).fmt
          (((words loadCols).zip (dec y :: soy :: w2 :: w3 :: w4 :: w5 :: w6 :: w7 :: w8 :: rest)).map
            fun p => (p.1, cell W.float (flag (words loadCols)) p.1 p.2))
          = (match number W.float soy with
            | none => .error .valueError
            | some s => convertTime (some (match readInt (dec y) with
              | .ok z => z
              | .error _ => -1)) (some s) none none none none (instDefaults (some "image".toList)).fmt) := rfl
      have e3 : number W.float soy = some (n : ℝ) := by rw [number, e2]; rfl
      rw [e, e3, Ocb.Vort.readInt_dec]
      exact ⟨_, C07_whole hy hy'.le n hn (.inl hy')⟩
  · refine succeeds_of hh hx hf hd hg hi hs (d := instDefaults (some "ampere".toList)) (by rw [hi'])
      (cols := words "date time r x y fom".toList) (by
        rw [hi']; rfl) h1 (k := k) hk (fun ws hws => (hw ws hws).1) ?_
    intro ws hws
    obtain ⟨hl, y, m, d, hh', mi, hv, h2, h3, e0, e1⟩ := hw ws hws
    match ws, (show 6 ≤ ws.length by omega) with
    | date :: time :: r :: x :: y' :: fom :: rest, _ =>
      cases e0
      cases e1
      have e : rowTime (flag (words "date time r x y fom".toList)) (instDefaults (some "ampere".toList)).fmt
          (((words "date time r x y fom".toList).zip (eightDigits y m d :: (pad2 hh' ++ ':' :: pad2 mi) :: r :: x :: y' :: fom ::
            rest)).map fun p => (p.1, cell W.float (flag (words "date time r x y fom".toList)) p.1 p.2))
          = convertTime none none none none (some ((eightDigits y m d).take 50)) (some ((pad2 hh' ++ ':' :: pad2 mi).take 50))
            "%Y%m%d %H:%M".toList := rfl
      rw [e, take_short, take_short, compact_time hv h2 h3]
      · exact ⟨_, rfl⟩
      · simp [pad2]
      · simp [eightDigits, pad2, pad4]
  · refine succeeds_of hh hx hf hd hg hi hs (d := instDefaults (some "dmsp-ssj".toList)) (by rw [hi'])
      (cols := words "sc date time r x y fom x_1 y_1 x_2 y_2".toList) (by
        rw [hi']; rfl) h1 (k := k) hk (fun ws hws => (hw ws hws).1) ?_
    intro ws hws
    obtain ⟨hl, y, m, d, hh', mi, s, hv, h2, h3, h4, e0, e1⟩ := hw ws hws
    match ws, (show 11 ≤ ws.length by omega) with
    | sc :: date :: time :: r :: x :: y' :: fom :: x1 :: y1 :: x2 :: y2 :: rest, _ =>
      cases e0
      cases e1
      have e : rowTime (flag (words "sc date time r x y fom x_1 y_1 x_2 y_2".toList)) (instDefaults (some "dmsp-ssj".toList)).fmt
          (((words "sc date time r x y fom x_1 y_1 x_2 y_2".toList).zip (sc :: dateText y m d :: (pad2 hh' ++ ':' :: (pad2 mi ++
            ':' :: pad2 s)) :: r :: x :: y' :: fom :: x1 :: y1 :: x2 :: y2 :: rest)).map fun p =>
            (p.1, cell W.float (flag (words "sc date time r x y fom x_1 y_1 x_2 y_2".toList)) p.1 p.2))
          = convertTime none none none none (some ((dateText y m d).take 50))
            (some ((pad2 hh' ++ ':' :: (pad2 mi ++ ':' :: pad2 s)).take 50)) "%Y-%m-%d %H:%M:%S".toList := rfl
      rw [e, take_short, take_short, C84_default_format hv h2 h3 h4]
      · exact ⟨_, rfl⟩
      · simp [pad2]
      · simp [dateText, pad2, pad4]

/-- C122 is false for files with one line: they are never loaded, whatever the line holds. -/
theorem C122_one_line_refuted {W : World Fn Kw} {A : Args Fn Kw} {f i : Name} (hf : A.filename = .text f)
    (hd : lower f ≠ "default".toList) (hg : W.good f = true) (hi : A.instrument = .text i)
    (h1 : (dataLines W f (instDefaults (some (lower i))).hlines).length = 1) : ∃ e, ocbInit W A = .error e := by
  cases h : ocbInit W A with
  | error e => exact ⟨e, rfl⟩
  | ok o =>
    exfalso
    obtain ⟨hn, hfile, -⟩ := C122_named h hf hd hi
    obtain ⟨ts, hne, -⟩ := records_from h (hfile hg) rfl rfl
    rw [hn] at hne
    exact hne h1

/-! ### Examples -/

/-- A line of an AMPERE file of the first of January 2010 -/
def demoLine (p : ℕ × ℕ) : List Name :=
  [eightDigits 2010 1 1, pad2 p.1 ++ ':' :: pad2 p.2, "12.0".toList, "1.0".toList, "-1.0".toList, "0.25".toList]

/-- One AMPERE file with lines at the given hours and minutes -/
noncomputable def demoWorld (l : List (ℕ × ℕ)) : World Bool ℕ :=
  ⟨⟨fun y m d => y * 10000 + m * 100 + d, 20240101, fun _ => none⟩, [], "boundaries".toList, fun n => n == "a.ocb".toList,
    fun _ => l.map demoLine,
    fun w => if w = "12.0".toList then some (some 12) else if w = "1.0".toList then some (some 1)
      else if w = "-1.0".toList then some (some (-1)) else if w = "0.25".toList then some (some (1 / 4)) else none,
    true, false, 0⟩

def demoArgs (s e : Option ℤ) : Args Bool ℕ := ⟨.text "a.ocb".toList, .text "AMPERE".toList, 1, some 74, s, e, .dflt, .dflt⟩

/-- Its time -/
def demoTime (p : ℕ × ℕ) : ℤ := midnight 2010 1 1 + ((p.1 : ℤ) * 60 + p.2) * 60000000

open Classical in
/-- The hypotheses of C122 are met: the file is loaded, with the times of its lines in the window, and each record is that
of a line. -/
theorem demo_loads (l : List (ℕ × ℕ)) (hl : l.length ≠ 1) (hv : ∀ p ∈ l, p.1 < 24 ∧ p.2 < 60) (s e : Option ℤ)
    (x : ℝ := 74) (rf : FnArg Bool := .dflt) (hrf : rf = .dflt ∨ rf = .one true := by exact .inl rfl) :
    ∃ o, ocbInit (demoWorld l) { demoArgs s e with lat := some x, rfunc := rf } = .ok o ∧ o.filename = some "a.ocb".toList ∧
      o.instrument = some "ampere".toList ∧ o.dtime = some ((l.map demoTime).filter fun t => decide (InWindow s e t)) ∧
      o.minFom = some (15 / 100) := by
  have hlow : lower "AMPERE".toList = "ampere".toList := by decide
  have hdata : dataLines (demoWorld l) "a.ocb".toList 0 = l.map demoLine := by
    unfold dataLines
    rw [List.drop_zero]
    refine List.filter_eq_self.2 ?_
    intro ws hws
    obtain ⟨p, -, rfl⟩ := List.mem_map.1 hws
    simp [demoLine]
  have hgood : (demoWorld l).good "a.ocb".toList = true := rfl
  have hvalid : Valid 2010 1 1 := by unfold Valid; decide
  obtain ⟨o, ho⟩ := C122_succeeds (W := demoWorld l) (A := { demoArgs s e with lat := some x, rfunc := rf }) (.inl rfl) (by simp) (f := "a.ocb".toList)
    (i := "AMPERE".toList) rfl (by decide) hgood rfl
    (by
      rw [hlow]
      rcases hrf with rfl | rfl
      · exact ⟨.inl ⟨rfl, by simp⟩, .inl rfl⟩
      · exact ⟨.inr ⟨true, rfl⟩, .inl rfl⟩) (k := 6)
    (.inr (.inl ⟨hlow, by rw [hdata, List.length_map]; exact hl, le_rfl, by
      rw [hdata]
      intro ws hws
      obtain ⟨p, hp, rfl⟩ := List.mem_map.1 hws
      exact ⟨rfl, 2010, 1, 1, p.1, p.2, hvalid, (hv p hp).1, (hv p hp).2, rfl, rfl⟩⟩))
  obtain ⟨h1, h2, -⟩ := C122_named ho (f := "a.ocb".toList) (i := "AMPERE".toList) rfl (by decide) rfl
  have hfile := h2 hgood
  rw [hlow] at h1
  refine ⟨o, ho, hfile, h1, ?_, ((C122_limits ho).2.1 h1).1⟩
  obtain ⟨ts, times, hts, ht, hrec, hrows, -, hall⟩ := C122_ampere ho hfile h1
  rw [hdata] at hts hall
  have e1 : ts = l.map demoTime := by
    obtain ⟨hlen, hts⟩ := List.forall₂_iff_get.1 hts
    rw [List.length_map] at hlen
    apply List.ext_getElem (by rw [List.length_map, hlen])
    intro i hi hi'
    have hil : i < l.length := by omega
    have := hts i (by rw [List.length_map]; exact hil) hi
    simp only [List.get_eq_getElem, List.getElem_map] at this ⊢
    exact this 2010 1 1 _ _ hvalid (hv _ (List.getElem_mem hil)).1 (hv _ (List.getElem_mem hil)).2 rfl rfl
  have e2 : times = (windowRows s e (ts.zip (l.map demoLine))).map (·.1) := by
    have h3 : (times.zip o.rows).map (·.1) = times := by
      rw [List.map_fst_zip]; omega
    rw [← h3]
    have h4 : List.Forall₂ (fun a b => a = b) ((windowRows s e (ts.zip (l.map demoLine))).map (·.1))
        ((times.zip o.rows).map (·.1)) := by
      rw [List.forall₂_map_left_iff, List.forall₂_map_right_iff]
      exact hall.imp fun _ _ h => h.1
    exact (List.forall₂_eq_eq_eq (α := ℤ) ▸ h4).symm
  rw [ht, e2, e1, List.zip_map']
  congr 1
  unfold windowRows
  rw [List.filter_map, List.filter_map, List.map_map]
  rfl

/-- Three lines -/
example : ∃ o, ocbInit (demoWorld [(0, 2), (0, 4), (23, 58)]) (demoArgs none none) = .ok o ∧
    o.dtime = some ((([(0, 2), (0, 4), (23, 58)] : List (ℕ × ℕ)).map demoTime).filter fun _ => true) := by
  obtain ⟨o, h1, -, -, h2, -⟩ := demo_loads [(0, 2), (0, 4), (23, 58)] (by decide) (by decide) none none
  refine ⟨o, h1, ?_⟩
  rw [h2]
  congr 2
  funext t
  simp [InWindow]

/-- One line -/
example : ∃ e, ocbInit (demoWorld [(0, 2)]) (demoArgs none none) = .error e :=
  C122_one_line_refuted (f := "a.ocb".toList) (i := "AMPERE".toList) rfl (by decide) rfl rfl (by decide)

/-- The hypotheses of C123: a documented name, and a name in capital letters -/
example : EabDocumented "wic".toList ∧ "wic".toList ∈ ["si12".toList, "si13".toList, "wic".toList] ∧
    lower "IMAGE".toList ∈ ["image".toList, "dmsp-ssj".toList, "ampere".toList] ∧ lower "IMAGE".toList ≠ "IMAGE".toList := by
  refine ⟨by unfold EabDocumented; decide, by decide, by decide, by decide⟩

end Ocb.Init
