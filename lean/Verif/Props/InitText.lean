import Verif.Props.Init

/-!
# Properties of the texts of `OCBoundary` and `EABoundary`: C124, C125
-/

set_option autoImplicit false

namespace Ocb.Init

open Ocb.Files (Name lower Cal)
open Ocb.Text
open Ocb.Vort (F Conv)
open Ocb.Smag (words)
open Ocb.Coord (FnArg InWindow windowRows setFns)

variable {Fn Kw : Type}

/-! ### Names in small letters -/

theorem lower_id {n : Name} : lower n = n ↔ ∀ c ∈ n, c.toLower = c := by
  unfold lower
  constructor
  · intro h c hc
    have h2 : n.map Char.toLower = n.map id := by rw [h, List.map_id]
    exact List.map_inj_left.1 h2 c hc
  · intro h
    conv_rhs => rw [← List.map_id n]
    exact List.map_congr_left h

theorem split_chars (n : Name) : ∀ p ∈ Ocb.Files.split n, ∀ c ∈ p, c ∈ n := by
  induction n with
  | nil => simp [Ocb.Files.split]
  | cons a n ih =>
    intro p hp c hc
    unfold Ocb.Files.split at hp
    split_ifs at hp with h
    · rcases List.mem_cons.1 hp with rfl | hp
      · cases hc
      · exact List.mem_cons_of_mem _ (ih p hp c hc)
    · split at hp
      · rcases List.mem_singleton.1 hp with rfl
        rcases List.mem_singleton.1 hc with rfl
        simp
      · next q qs hq =>
        rcases List.mem_cons.1 hp with rfl | hp
        · rcases List.mem_cons.1 hc with rfl | hc
          · simp
          · exact List.mem_cons_of_mem _ (ih q (by rw [hq]; simp) c hc)
        · exact List.mem_cons_of_mem _ (ih p (by rw [hq]; simp [hp]) c hc)

theorem entry_low {c : Cal} {n : Name} {i : Ocb.Files.Info} (h : Ocb.Files.entry c n = .ok i) : lower i.inst = i.inst := by
  have key : ∀ inst, Ocb.Files.part (Ocb.Files.split (Ocb.Files.cut4 (lower n))) 0 = .ok inst → lower inst = inst := by
    intro inst hi
    rw [lower_id]
    intro ch hc
    unfold Ocb.Files.part at hi
    split at hi
    · next p hp =>
      cases hi
      have h1 := split_chars _ _ (List.mem_of_getElem? hp) ch hc
      have h2 : ch ∈ lower n := List.mem_of_mem_take h1
      obtain ⟨d, -, rfl⟩ := List.mem_map.1 h2
      exact low_low d
    · cases hi
  unfold Ocb.Files.entry at h
  simp only [bind, Except.bind, pure, Except.pure] at h
  split at h
  · cases h
  · next inst hi =>
    have := key inst hi
    repeat' split at h
    all_goals first | (cases h; exact this) | cases h

theorem mapE_mem {α β : Type} {f : α → Except PyErr β} {l : List α} {r : List β} (h : Ocb.mapE f l = .ok r) :
    ∀ y ∈ r, ∃ x ∈ l, f x = .ok y := by
  obtain ⟨h1, h2⟩ := Ocb.mapE_get h
  intro y hy
  obtain ⟨i, hi, rfl⟩ := List.getElem_of_mem hy
  obtain ⟨z, hz1, hz2⟩ := h2 i (l[i]'(h1 ▸ hi)) (List.getElem?_eq_getElem _)
  rw [List.getElem?_eq_getElem hi] at hz1
  cases hz1
  exact ⟨_, List.getElem_mem _, hz2⟩

theorem goodFiles_sub {inst : List Name} {hem : ℤ} {s e : Option ℤ} {l r : List (Name × Ocb.Files.Info)}
    (h : Ocb.Files.goodFiles inst hem s e l = .ok r) : ∀ x ∈ r, x ∈ l := by
  induction l generalizing r with
  | nil => cases h; simp
  | cons a l ih =>
    unfold Ocb.Files.goodFiles at h
    simp only [bind, Except.bind, pure, Except.pure] at h
    split at h
    · cases h
    · split at h
      · cases h
      · next r' hr' =>
        cases h
        intro x hx
        split_ifs at hx
        · rcases List.mem_cons.1 hx with rfl | hx
          · simp
          · exact List.mem_cons_of_mem _ (ih hr' x hx)
        · exact List.mem_cons_of_mem _ (ih hr' x hx)

theorem long_low {n : Name} (h : lower n = n) : lower (Ocb.Files.longName n) = Ocb.Files.longName n := by
  unfold Ocb.Files.longName
  split_ifs
  · decide
  · decide
  · exact h

theorem least_mem {l : List (ℕ × (Name × Ocb.Files.Info))} {x : ℕ × (Name × Ocb.Files.Info)}
    (h : Ocb.Files.leastLast l = some x) : x ∈ l := by
  induction l with
  | nil => cases h
  | cons a l ih =>
    unfold Ocb.Files.leastLast at h
    split at h
    · cases h; simp
    · next y hy =>
      split_ifs at h
      · cases h; simp
      · cases h; exact List.mem_cons_of_mem _ (ih hy)

/-- The instrument of a default file is written in small letters. -/
theorem default_low {c : Cal} {listing : List (Name × Bool)} {s e : Option ℤ} {hem : ℤ} {i b : Name} (hi : lower i = i)
    {p : Option Name × Name} (h : Ocb.Files.getDefault c listing s e hem i b = .ok p) : lower p.2 = p.2 := by
  unfold Ocb.Files.getDefault at h
  simp only [Except.bind] at h
  split at h
  · cases h
  · next good hg =>
    split at hg
    · cases hg
    · next files hfiles =>
      have hlow : ∀ x ∈ good, lower x.2.inst = x.2.inst := by
        intro x hx
        obtain ⟨y, -, hy⟩ := mapE_mem hfiles x (goodFiles_sub hg x hx)
        simp only [Except.map] at hy
        split at hy
        · cases hy
        · next q hq => cases hy; exact entry_low hq
      unfold Ocb.Files.choose at h
      split at h
      · cases h; exact hi
      · cases h; exact long_low (hlow _ (by simp))
      · simp only [bind, Except.bind, pure, Except.pure] at h
        split at h
        · cases h
        · next ranked hr =>
          split at h
          · cases h; exact hi
          · next k q hq =>
            cases h
            obtain ⟨y, hy1, hy2⟩ := mapE_mem hr _ (least_mem hq)
            simp only [Except.map] at hy2
            split at hy2
            · cases hy2
            · cases hy2; exact long_low (hlow _ hy1)

/-- The instrument of an object is written in small letters, and the name of its file does not ask for a default file. -/
theorem pick_low {W : World Fn Kw} {A : Args Fn Kw} {p : Option Name × Option Name} (h : pick W A = .ok p) :
    (∀ i, p.2 = some i → lower i = i) ∧
    (∀ f, p.1 = some f → W.good f = true ∧ lower f ≠ "default".toList ∧ p.2 ≠ none) := by
  unfold pick at h
  split at h
  · next i hi =>
    simp only [Except.map] at h
    split at h
    · cases h
    · next q hq =>
      cases h
      have hq' : lower q.2 = q.2 ∧ ∀ f, q.1 = some f → lower f ≠ "default".toList := by
        split at hq
        · next f hf =>
          split_ifs at hq with hd
          · unfold defaultFile at hq
            simp only [Except.map] at hq
            split at hq
            · cases hq
            · next r hr =>
              cases hq
              refine ⟨default_low (p := r) (lower_lower i) hr, ?_⟩
              rintro g hg hl
              obtain ⟨n, -, rfl⟩ := Option.map_eq_some_iff.1 hg
              have : '/' ∈ lower (W.dir ++ '/' :: n) := List.mem_map.2 ⟨'/', by simp, by decide⟩
              rw [hl] at this
              exact absurd this (by decide)
          · cases hq
            refine ⟨lower_lower i, ?_⟩
            rintro g hg
            cases hg
            exact hd
        · cases hq
          exact ⟨lower_lower i, by simp⟩
      refine ⟨?_, ?_⟩
      · intro j hj
        cases hj
        exact hq'.1
      · intro f hf
        obtain ⟨h1, h2⟩ := Option.filter_eq_some_iff.1 hf
        exact ⟨h2, hq'.2 f h1, by simp⟩
  · cases h
    simp

/-! ### C124: the text of an object evaluates to the object -/

theorem loaded_eq {W : World Fn Kw} {o : Obj Fn Kw} {file : Name} {hl : ℕ} {cols fmt : Name} {s e : Option ℤ}
    (hf : flag (words cols) ≠ .missing) {rows : List Row} {times : List ℤ} {fs : List Fn} {ks : List Kw}
    (h1 : readRows W.float (flag (words cols)) (words cols) ((W.lines file).drop hl) = .ok rows) (h2 : rows.length ≠ 1)
    (h3 : Ocb.mapE (rowTime (flag (words cols)) fmt) rows = .ok times)
    (h4 : setFns W.circular W.elliptical (String.ofList (o.instrument.getD []))
        (windowRows s e (times.zip (rows.map (addCentre (words cols))))).length o.rfunc = .ok fs)
    (h5 : setKw W.noKw (windowRows s e (times.zip (rows.map (addCentre (words cols))))).length o.kwargs = .ok ks) :
    loadObj W o file hl cols fmt s e = .ok { o with
        recInd := -1
        records := (windowRows s e (times.zip (rows.map (addCentre (words cols))))).length
        dtime := some ((windowRows s e (times.zip (rows.map (addCentre (words cols))))).map (·.1))
        rows := (windowRows s e (times.zip (rows.map (addCentre (words cols))))).map (·.2)
        rfunc := .array fs
        kwargs := .array ks } := by
  obtain ⟨o', h⟩ := loadObj_ok hf h1 h2 h3 h4 h5
  obtain ⟨rows', times', fs', ks', g1, -, g3, g4, g5, g6⟩ := loadObj_inv h hf
  rw [h1] at g1
  cases g1
  rw [h3] at g3
  cases g3
  rw [h4] at g4
  cases g4
  rw [h5] at g5
  cases g5
  rw [h, g6]

theorem repr_same {α : Type} {name : α → Name} (hn : Function.Injective name) {f : α} {rest : List α}
    (h : rest.all (fun g => name g == name f) = true) : f :: rest = List.replicate (rest.length + 1) f := by
  rw [List.replicate_succ]
  congr 1
  rw [List.eq_replicate_iff]
  refine ⟨rfl, fun g hg => ?_⟩
  have := List.all_eq_true.1 h g hg
  exact hn (by simpa using this)

theorem repr_fns {name : Fn → Name} (hn : Function.Injective name) (c e : Fn) (inst : String) (fs : List Fn) (h : fs ≠ []) :
    ∃ rf, reprFns name (.array fs) = .ok rf ∧ rf ≠ .dflt ∧ setFns c e inst fs.length rf = .ok fs := by
  cases fs with
  | nil => exact absurd rfl h
  | cons f rest =>
    unfold reprFns
    simp only
    by_cases hs : rest.all (fun g => name g == name f) = true
    · rw [if_pos hs]
      refine ⟨_, rfl, by simp, ?_⟩
      simp only [setFns, List.length_cons]
      rw [repr_same hn hs]
    · rw [if_neg hs]
      exact ⟨_, rfl, by simp, by simp [setFns]⟩

theorem repr_kws {text : Kw → Name} (hn : Function.Injective text) (noKw : Kw) (ks : List Kw) :
    setKw noKw ks.length (reprKw text (.array ks)) = .ok ks := by
  cases ks with
  | nil => rfl
  | cons f rest =>
    unfold reprKw
    simp only
    by_cases hs : rest.all (fun g => text g == text f) = true
    · rw [if_pos hs]
      simp only [setKw, List.length_cons]
      rw [repr_same hn hs]
    · rw [if_neg hs]
      simp [setKw]

theorem setFns_length {c e : Fn} {inst : String} {n : ℕ} {rf : FnArg Fn} {fs : List Fn}
    (h : setFns c e inst n rf = .ok fs) : fs.length = n := by
  unfold setFns at h
  split at h
  · split_ifs at h <;> (cases h; simp)
  · cases h; simp
  · split_ifs at h with h'
    cases h; exact h'
  · cases h

theorem setKw_length {noKw : Kw} {n : ℕ} {rf : FnArg Kw} {ks : List Kw} (h : setKw noKw n rf = .ok ks) : ks.length = n := by
  unfold setKw at h
  split at h
  · cases h; simp
  · cases h; simp
  · split_ifs at h with h'
    cases h; exact h'
  · cases h

theorem round6_near (x : ℝ) : |round6 x - x| ≤ 1 / 2000000 := by
  unfold round6
  have h := abs_sub_round (x * 1000000)
  have e : (round (x * 1000000) : ℝ) / 1000000 - x = -((x * 1000000 - round (x * 1000000)) / 1000000) := by ring
  rw [e, abs_neg, abs_div, abs_of_pos (show (0 : ℝ) < 1000000 by norm_num)]
  rw [div_le_div_iff₀ (by norm_num) (by norm_num)]
  linarith

theorem round6_exact (k : ℤ) : round6 (k / 1000000) = k / 1000000 := by
  unfold round6
  rw [div_mul_cancel₀ _ (by norm_num), round_intCast]

theorem round6_sign (x : ℝ) : (0 ≤ x → 0 ≤ round6 x) ∧ (x ≤ 0 → round6 x ≤ 0) := by
  unfold round6
  constructor
  · intro h
    have : 0 ≤ round (x * 1000000) := by
      rw [round_eq]; exact Int.floor_nonneg.2 (by positivity)
    have h' : (0 : ℝ) ≤ (round (x * 1000000) : ℝ) := by exact_mod_cast this
    positivity
  · intro h
    have h1 : round (x * 1000000) < 1 := by
      rw [round_eq]; exact Int.floor_lt.2 (by push_cast; nlinarith)
    have h' : (round (x * 1000000) : ℝ) ≤ 0 := by exact_mod_cast (by omega : round (x * 1000000) ≤ 0)
    exact div_nonpos_of_nonpos_of_nonneg h' (by norm_num)

/-- A latitude in the hemisphere stays what it is. -/
theorem sign_kept {y : ℝ} {hem : ℤ} (h : hem = 1 ∧ 0 ≤ y ∨ hem = -1 ∧ y ≤ 0) : (if sgn y ≠ hem then -y else y) = y := by
  by_cases h0 : y = 0
  · subst h0; split_ifs <;> simp
  rw [if_neg]
  rcases h with ⟨rfl, hy⟩ | ⟨rfl, hy⟩
  · have : 0 < y := lt_of_le_of_ne hy (Ne.symm h0)
    simp [sgn, this]
  · have : y < 0 := lt_of_le_of_ne hy h0
    simp [sgn, this, not_lt.2 hy]

open Classical in
theorem window_shrink {α : Type} {s e : Option ℤ} {l : List (ℤ × α)} {a b : ℤ} {ts : List ℤ}
    (hts : (windowRows s e l).map (·.1) = ts) (ha : ts.head? = some a) (hb : ts.getLast? = some b) :
    windowRows (some a) (some b) l = (windowRows s e l).filter fun p => decide (a ≤ p.1 ∧ p.1 ≤ b) := by
  have ha' : a ∈ ts := List.mem_of_mem_head? ha
  have hb' : b ∈ ts := List.mem_of_mem_getLast? hb
  have hw : ∀ t ∈ ts, InWindow s e t := by
    intro t ht
    rw [← hts] at ht
    obtain ⟨p, hp, rfl⟩ := List.mem_map.1 ht
    simpa using (List.mem_filter.1 hp).2
  unfold windowRows
  rw [List.filter_filter]
  apply List.filter_congr
  intro p hp
  rw [Bool.eq_iff_iff]
  simp only [decide_eq_true_eq, Bool.and_eq_true]
  constructor
  · rintro ⟨h1, h2⟩
    have h1 := h1 a rfl
    have h2 := h2 b rfl
    refine ⟨⟨h1, h2⟩, fun x hx => ?_, fun x hx => ?_⟩
    · exact ((hw a ha').1 x hx).trans h1
    · exact h2.trans ((hw b hb').2 x hx)
  · rintro ⟨⟨h1, h2⟩, -⟩
    exact ⟨fun x hx => by cases hx; exact h1, fun x hx => by cases hx; exact h2⟩

/-- The arguments that the text of a loaded object holds, and what a constructor makes of them. -/
theorem repr_parts {W : World Fn Kw} {A : Args Fn Kw} {o : Obj Fn Kw} (h : ocbInit W A = .ok o) {f : Name}
    (hf : o.filename = some f) (r : ℤ) {name : Fn → Name} {text : Kw → Name} (hn : Function.Injective name)
    (ht : Function.Injective text) {times : List ℤ} (hd : o.dtime = some times) {a b : ℤ} (ha : times.head? = some a)
    (hb : times.getLast? = some b) (hin : ∀ t ∈ times, a ≤ t ∧ t ≤ b) :
    ∃ A', reprArgs name text { o with recInd := r } = .ok A' ∧ A'.filename = .text f ∧ lower f ≠ "default".toList ∧
      A'.rfunc ≠ .dflt ∧ ocbInit W A' = .ok { o with lat := round6 o.lat } := by
  obtain ⟨hh, hhem, x0, hx0, habs, hsign⟩ := C34_constructor h
  obtain ⟨x, hx, hp, hl⟩ := filled h hf
  obtain ⟨rows, ts, fs, ks, h1, h2, h3, h4, h5, h6⟩ := loadObj_inv hl (colsOf_flag _)
  obtain ⟨hlow, hfile⟩ := pick_low hp
  obtain ⟨hg, hnd, hinst⟩ := hfile f rfl
  obtain ⟨i, hi⟩ := Option.ne_none_iff_exists'.1 hinst
  simp only at hi
  have hli := hlow i hi
  have hfs : o.rfunc = .array fs := by rw [h6]
  have hks : o.kwargs = .array ks := by rw [h6]
  have hlen : fs.length = (windowRows A.stime A.etime (ts.zip (rows.map (addCentre (words (colsOf o.instrument)))))).length :=
    setFns_length h4
  have hlen' := setKw_length h5
  have hdt : (windowRows A.stime A.etime (ts.zip (rows.map (addCentre (words (colsOf o.instrument)))))).map (·.1) = times := by
    have : o.dtime = some ((windowRows A.stime A.etime (ts.zip (rows.map (addCentre (words (colsOf o.instrument)))))).map (·.1)) := by
      exact congrArg Obj.dtime h6
    rw [hd] at this
    exact (Option.some.inj this).symm
  have hne : fs ≠ [] := by
    intro e
    rw [e] at hlen
    have : times.length = 0 := by rw [← hdt, List.length_map, ← hlen]; rfl
    rw [List.length_eq_zero_iff.1 this] at ha
    cases ha
  obtain ⟨rf, hrf1, hrf2, hrf3⟩ := repr_fns hn W.circular W.elliptical (String.ofList (o.instrument.getD [])) fs hne
  have hkw := repr_kws ht W.noKw ks
  refine ⟨⟨.text f, .text i, o.hem, some (round6 o.lat), some a, some b, rf, reprKw text (.array ks)⟩, ?_, rfl, hnd, hrf2, ?_⟩
  · unfold reprArgs
    simp only [bind, Except.bind, pure, Except.pure, hd, ha, hb, hfs, hks, hrf1, hf, hi]
  · have hp' : pick W ⟨.text f, .text i, o.hem, some (round6 o.lat), some a, some b, rf, reprKw text (.array ks)⟩
        = .ok (some f, o.instrument) := by
      unfold pick
      simp only
      rw [if_neg hnd, hli, hi]
      simp only [Except.map]
      rw [Option.filter_some_pos hg]
    rw [ocbInit_eq W _ hp' (by rw [hhem]; exact hh) rfl]
    have hwin : windowRows (some a) (some b) (ts.zip (rows.map (addCentre (words (colsOf o.instrument)))))
        = windowRows A.stime A.etime (ts.zip (rows.map (addCentre (words (colsOf o.instrument))))) := by
      rw [window_shrink hdt ha hb, List.filter_eq_self]
      intro p hp
      rw [decide_eq_true_eq]
      exact hin _ (by rw [← hdt]; exact List.mem_map_of_mem hp)
    simp only
    rw [loaded_eq (fs := fs) (ks := ks) (colsOf_flag _) h1 h2 h3 (by rw [hwin, ← hlen]; exact hrf3)
      (by rw [hwin, ← hlen']; exact hkw), hwin]
    congr 1
    have hlat : (if sgn (round6 o.lat) ≠ o.hem then -round6 o.lat else round6 o.lat) = round6 o.lat := by
      apply sign_kept
      rw [hhem]
      by_cases hx1 : x0 = 0
      · have h0 : o.lat = 0 := by rw [hx1, abs_zero] at habs; exact abs_eq_zero.1 habs
        have hr0 : round6 o.lat = 0 := le_antisymm ((round6_sign _).2 h0.le) ((round6_sign _).1 h0.ge)
        rw [hr0]
        rcases hh with e | e
        · exact .inl ⟨e, le_rfl⟩
        · exact .inr ⟨e, le_rfl⟩
      · have := hsign hx1
        rcases hh with e | e <;> rw [e] at this ⊢
        · left; exact ⟨rfl, (round6_sign _).1 (by push_cast at this; linarith)⟩
        · right; exact ⟨rfl, (round6_sign _).2 (by push_cast at this; linarith)⟩
    simp only [blank]
    rw [hlat, h6]
    rfl

theorem sorted_between {l : List ℤ} (h : l.Pairwise (· ≤ ·)) {a b : ℤ} (ha : l.head? = some a) (hb : l.getLast? = some b) :
    ∀ t ∈ l, a ≤ t ∧ t ≤ b := by
  intro t ht
  constructor
  · cases l with
    | nil => cases ht
    | cons c l =>
      cases ha
      rcases List.mem_cons.1 ht with rfl | ht
      · exact le_rfl
      · exact (List.pairwise_cons.1 h).1 t ht
  · obtain ⟨l', rfl⟩ := List.getLast?_eq_some_iff.1 hb
    rcases List.mem_append.1 ht with ht | ht
    · exact (List.pairwise_append.1 h).2.2 t ht b (by simp)
    · rw [List.mem_singleton.1 ht]

theorem ends_of {l : List ℤ} (h : l ≠ []) : ∃ a b, l.head? = some a ∧ l.getLast? = some b :=
  ⟨l.head h, l.getLast h, List.head?_eq_some_head h, List.getLast?_eq_some_getLast h⟩

/-- The two objects are the same, except that the latitude is written with six decimals. -/
def SameObj (o o' : Obj Fn Kw) : Prop :=
  ∃ y, o' = { o with lat := y } ∧ |y - o.lat| ≤ 1 / 2000000 ∧ ∀ k : ℤ, o.lat = k / 1000000 → y = o.lat

theorem sameObj_round (o : Obj Fn Kw) : SameObj o { o with lat := round6 o.lat } :=
  ⟨_, rfl, round6_near _, fun k hk => by rw [hk, round6_exact]⟩

/-- C124 as far as it holds: the text of an object with records in the order of time, taken at any position of the cursor,
evaluates to the object as it was constructed.  Missing: records out of order (`C124_unsorted_refuted`), no records
(`C124_empty_refuted`), and objects without a file but with a correction (`C124_no_file_refuted`). -/
theorem C124_roundtrip_partial {W : World Fn Kw} {A : Args Fn Kw} {o : Obj Fn Kw} (h : ocbInit W A = .ok o) {f : Name}
    (hf : o.filename = some f) (r : ℤ) {name : Fn → Name} {text : Kw → Name} (hn : Function.Injective name)
    (ht : Function.Injective text) {times : List ℤ} (hd : o.dtime = some times) (hne : times ≠ [])
    (hs : times.Pairwise (· ≤ ·)) :
    ∃ A' o', reprArgs name text { o with recInd := r } = .ok A' ∧ ocbInit W A' = .ok o' ∧ SameObj o o' := by
  obtain ⟨a, b, ha, hb⟩ := ends_of hne
  obtain ⟨A', h1, -, -, -, h2⟩ := repr_parts h hf r hn ht hd ha hb (sorted_between hs ha hb)
  exact ⟨A', _, h1, h2, sameObj_round o⟩

/-- C124 as far as it holds for `EABoundary`.  Missing: as for `OCBoundary`, and every object without a file
(`C124_eab_refuted`). -/
theorem C124_eab_partial {W : World Fn Kw} {A : Args Fn Kw} {o : Obj Fn Kw} (h : eabInit W A = .ok o) {f : Name}
    (hf : o.filename = some f) (r : ℤ) {name : Fn → Name} {text : Kw → Name} (hn : Function.Injective name)
    (ht : Function.Injective text) {times : List ℤ} (hd : o.dtime = some times) (hne : times ≠ [])
    (hs : times.Pairwise (· ≤ ·)) :
    ∃ A' o', reprArgs name text { o with recInd := r } = .ok A' ∧ eabInit W A' = .ok o' ∧ SameObj o o' := by
  obtain ⟨A1, h1, -⟩ := eab_calls h
  obtain ⟨a, b, ha, hb⟩ := ends_of hne
  obtain ⟨A', e1, e2, e3, e4, e5⟩ := repr_parts h1 hf r hn ht hd ha hb (sorted_between hs ha hb)
  refine ⟨A', _, e1, ?_, sameObj_round o⟩
  rw [C123_as_ocb W A' e4 (by intro g hg; rw [e2] at hg; cases hg; exact e3)]
  exact e5

/-- C124 for an object without a file, a correction and its arguments -/
theorem C124_no_file {W : World Fn Kw} {A : Args Fn Kw} {o : Obj Fn Kw} (h : ocbInit W A = .ok o)
    (hf : o.filename = none) (hr : A.rfunc = .dflt) (hk : A.kwargs = .dflt) (name : Fn → Name) (text : Kw → Name) :
    ∃ A' o', reprArgs name text o = .ok A' ∧ ocbInit W A' = .ok o' ∧ SameObj o o' := by
  obtain ⟨hh, hhem, x0, hx0, habs, hsign⟩ := C34_constructor h
  obtain ⟨p, x, hp, -, hx⟩ := ocbInit_inv h
  rw [ocbInit_eq W A hp hh hx] at h
  obtain ⟨p1, p2⟩ := p
  cases p1 with
  | some g =>
    obtain ⟨rows, times, fs, ks, -, -, -, -, -, e⟩ := loadObj_inv h (colsOf_flag _)
    rw [e] at hf
    cases hf
  | none =>
    simp only [Except.ok.injEq] at h
    have hlow := (pick_low hp).1
    simp only at hlow
    have hlat : (if sgn (round6 o.lat) ≠ o.hem then -round6 o.lat else round6 o.lat) = round6 o.lat := by
      apply sign_kept
      rw [hhem]
      by_cases hx1 : x0 = 0
      · have h0 : o.lat = 0 := by rw [hx1, abs_zero] at habs; exact abs_eq_zero.1 habs
        have hr0 : round6 o.lat = 0 := le_antisymm ((round6_sign _).2 h0.le) ((round6_sign _).1 h0.ge)
        rw [hr0]
        rcases hh with e | e
        · exact .inl ⟨e, le_rfl⟩
        · exact .inr ⟨e, le_rfl⟩
      · have := hsign hx1
        rcases hh with e | e <;> rw [e] at this ⊢
        · left; exact ⟨rfl, (round6_sign _).1 (by push_cast at this; linarith)⟩
        · right; exact ⟨rfl, (round6_sign _).2 (by push_cast at this; linarith)⟩
    refine ⟨⟨.none, match p2 with | some n => .text n | none => .none, o.hem, some (round6 o.lat), none, none, .dflt, .dflt⟩,
      { o with lat := round6 o.lat }, ?_, ?_, sameObj_round o⟩
    · subst h
      unfold reprArgs
      simp only [blank, hr, hk, bind, Except.bind, pure, Except.pure, reprFns, reprKw]
      cases p2 <;> rfl
    · have hp' : pick W (⟨.none, match p2 with | some n => .text n | none => .none, o.hem, some (round6 o.lat), none, none,
          .dflt, .dflt⟩ : Args Fn Kw) = .ok (none, p2) := by
        unfold pick
        cases p2 with
        | none => rfl
        | some i => simp only [Except.map, Option.filter_none]; rw [hlow i rfl]
      rw [ocbInit_eq W _ hp' (by rw [hhem]; exact hh) rfl]
      simp only [blank]
      rw [hlat, ← h]
      simp only [blank, hr, hk]

theorem unsorted_fewer {W : World Fn Kw} {A : Args Fn Kw} {o : Obj Fn Kw} (h : ocbInit W A = .ok o) {f : Name}
    (hf : o.filename = some f) {name : Fn → Name} {text : Kw → Name} {times : List ℤ} (hd : o.dtime = some times)
    {a b t : ℤ} (ha : times.head? = some a) (hb : times.getLast? = some b) (ht : t ∈ times) (hout : t < a ∨ b < t)
    {A' : Args Fn Kw} (hr : reprArgs name text o = .ok A') {o' : Obj Fn Kw} (h' : ocbInit W A' = .ok o') :
    o'.records < o.records := by
  obtain ⟨x, hx, hp, hl⟩ := filled h hf
  obtain ⟨rows, ts, fs, ks, h1, h2, h3, h4, h5, h6⟩ := loadObj_inv hl (colsOf_flag _)
  obtain ⟨hlow, hfile⟩ := pick_low hp
  obtain ⟨hg, hnd, hinst⟩ := hfile f rfl
  obtain ⟨i, hi⟩ := Option.ne_none_iff_exists'.1 hinst
  simp only at hi
  have hli := hlow i hi
  have hA : A'.filename = .text f ∧ A'.instrument = .text i ∧ A'.stime = some a ∧ A'.etime = some b := by
    unfold reprArgs at hr
    simp only [bind, Except.bind, pure, Except.pure, hd, ha, hb, hf, hi] at hr
    split at hr
    · cases hr
    · cases hr; exact ⟨rfl, rfl, rfl, rfl⟩
  have hp' : pick W A' = .ok (some f, o.instrument) := by
    unfold pick
    simp only [hA.1, hA.2.1]
    rw [if_neg hnd, hli, hi]
    simp only [Except.map]
    rw [Option.filter_some_pos hg]
  obtain ⟨p, y, hp2, hh', hy⟩ := ocbInit_inv h'
  rw [hp'] at hp2
  cases hp2
  rw [ocbInit_eq W A' hp' hh' hy] at h'
  obtain ⟨rows', ts', fs', ks', g1, -, g3, -, -, g6⟩ := loadObj_inv h' (colsOf_flag _)
  simp only at g1 g3 g6
  rw [h1] at g1
  cases g1
  rw [h3] at g3
  cases g3
  have hdt : (windowRows A.stime A.etime (ts.zip (rows.map (addCentre (words (colsOf o.instrument)))))).map (·.1) = times := by
    have : o.dtime = some ((windowRows A.stime A.etime (ts.zip (rows.map (addCentre (words (colsOf o.instrument)))))).map (·.1)) :=
      congrArg Obj.dtime h6
    rw [hd] at this
    exact (Option.some.inj this).symm
  have e1 : o'.records = (windowRows (some a) (some b) (ts.zip (rows.map (addCentre (words (colsOf o.instrument)))))).length := by
    have := congrArg Obj.records g6
    rw [hA.2.2.1, hA.2.2.2] at this
    exact this
  have e2 : o.records = (windowRows A.stime A.etime (ts.zip (rows.map (addCentre (words (colsOf o.instrument)))))).length :=
    congrArg Obj.records h6
  rw [e1, e2, window_shrink hdt ha hb]
  refine lt_of_le_of_ne (List.length_filter_le _ _) ?_
  rw [Ne, List.length_filter_eq_length_iff]
  intro hall
  rw [← hdt] at ht
  obtain ⟨q, hq, rfl⟩ := List.mem_map.1 ht
  have := hall q hq
  rw [decide_eq_true_eq] at this
  omega

theorem repr_const {α : Type} (name : α → Name) (g : α) {n : ℕ} (h : n ≠ 0) :
    reprFns name (.array (List.replicate n g)) = .ok (.one g) ∧ reprKw name (.array (List.replicate n g)) = .one g := by
  obtain ⟨m, rfl⟩ := Nat.exists_eq_succ_of_ne_zero h
  have : (List.replicate m g).all (fun x => name x == name g) = true := by simp
  constructor
  · unfold reprFns
    simp only [List.replicate_succ]
    rw [if_pos this]
  · unfold reprKw
    simp only [List.replicate_succ]
    rw [if_pos this]

/-- C124 is false for records out of order: if a record is earlier than the first or later than the last one, the text
evaluates to an object with fewer records. -/
theorem C124_unsorted_refuted {W : World Fn Kw} {A : Args Fn Kw} {o : Obj Fn Kw} (h : ocbInit W A = .ok o) {f : Name}
    (hf : o.filename = some f) (name : Fn → Name) (text : Kw → Name) (hr : A.rfunc = .dflt ∨ ∃ g, A.rfunc = .one g)
    (hk : A.kwargs = .dflt ∨ ∃ k, A.kwargs = .one k) {times : List ℤ} (hd : o.dtime = some times) {a b t : ℤ}
    (ha : times.head? = some a) (hb : times.getLast? = some b) (ht : t ∈ times) (hout : t < a ∨ b < t) :
    ∃ A' o', reprArgs name text o = .ok A' ∧ ocbInit W A' = .ok o' ∧ o'.records < o.records := by
  obtain ⟨hh, hhem, -⟩ := C34_constructor h
  obtain ⟨x, hx, hp, hl⟩ := filled h hf
  obtain ⟨rows, ts, fs, ks, h1, h2, h3, h4, h5, h6⟩ := loadObj_inv hl (colsOf_flag _)
  obtain ⟨hlow, hfile⟩ := pick_low hp
  obtain ⟨hg, hnd, hinst⟩ := hfile f rfl
  obtain ⟨i, hi⟩ := Option.ne_none_iff_exists'.1 hinst
  simp only at hi
  have hli := hlow i hi
  have hlen : times.length = (windowRows A.stime A.etime
      (ts.zip (rows.map (addCentre (words (colsOf o.instrument)))))).length := by
    have : o.dtime = some ((windowRows A.stime A.etime (ts.zip (rows.map (addCentre (words (colsOf o.instrument)))))).map (·.1)) :=
      congrArg Obj.dtime h6
    rw [hd] at this
    rw [Option.some.inj this, List.length_map]
  have hne : (windowRows A.stime A.etime (ts.zip (rows.map (addCentre (words (colsOf o.instrument)))))).length ≠ 0 := by
    rw [← hlen]
    intro e
    rw [List.length_eq_zero_iff.1 e] at ht
    cases ht
  obtain ⟨g, hfs⟩ : ∃ g, fs = List.replicate (windowRows A.stime A.etime
      (ts.zip (rows.map (addCentre (words (colsOf o.instrument)))))).length g := by
    have e : (blank A (some f, o.instrument) x).rfunc = A.rfunc := rfl
    rw [e] at h4
    rcases hr with e | ⟨g, e⟩ <;> rw [e] at h4
    · simp only [setFns] at h4
      split_ifs at h4 <;> (cases h4; exact ⟨_, rfl⟩)
    · cases h4
      exact ⟨_, rfl⟩
  obtain ⟨k, hks⟩ : ∃ k, ks = List.replicate (windowRows A.stime A.etime
      (ts.zip (rows.map (addCentre (words (colsOf o.instrument)))))).length k := by
    have e : (blank A (some f, o.instrument) x).kwargs = A.kwargs := rfl
    rw [e] at h5
    rcases hk with e | ⟨g, e⟩ <;> rw [e] at h5 <;> (cases h5; exact ⟨_, rfl⟩)
  have hofs : o.rfunc = .array fs := congrArg Obj.rfunc h6
  have hoks : o.kwargs = .array ks := congrArg Obj.kwargs h6
  have e : reprArgs name text o
      = .ok ⟨.text f, .text i, o.hem, some (round6 o.lat), some a, some b, .one g, .one k⟩ := by
    have hrf : reprFns name o.rfunc = .ok (.one g) := by rw [hofs, hfs]; exact (repr_const name g hne).1
    have hkw : reprKw text o.kwargs = .one k := by rw [hoks, hks]; exact (repr_const text k hne).2
    unfold reprArgs
    simp only [bind, Except.bind, pure, Except.pure, hd, ha, hb, hrf, hkw, hf, hi]
  have hp' : pick W ⟨.text f, .text i, o.hem, some (round6 o.lat), some a, some b, .one g, .one k⟩
      = .ok (some f, o.instrument) := by
    unfold pick
    simp only
    rw [if_neg hnd, hli, hi]
    simp only [Except.map]
    rw [Option.filter_some_pos hg]
  have hok : ∃ o', ocbInit W ⟨.text f, .text i, o.hem, some (round6 o.lat), some a, some b, .one g, .one k⟩ = .ok o' := by
    rw [ocbInit_eq W _ hp' (by rw [hhem]; exact hh) rfl]
    exact loadObj_ok (colsOf_flag _) h1 h2 h3 rfl rfl
  obtain ⟨o', ho'⟩ := hok
  exact ⟨_, o', e, ho', unsorted_fewer h hf hd ha hb ht hout e ho'⟩

/-- C124 is false for an object with a file but no records in the time window: there is no first time to write. -/
theorem C124_empty_refuted {W : World Fn Kw} {A : Args Fn Kw} {o : Obj Fn Kw} (h : ocbInit W A = .ok o) {f : Name}
    (hf : o.filename = some f) (h0 : o.records = 0) (name : Fn → Name) (text : Kw → Name) :
    reprArgs name text o = .error .indexError := by
  rcases C126_states h with h1 | ⟨g, times, -, -, -, h1, h2, -⟩
  · rw [h1.1] at hf; cases hf
  · rw [h0] at h2
    rw [List.length_eq_zero_iff.1 h2] at h1
    unfold reprArgs
    simp only [h1, bind, Except.bind, List.head?_nil]

/-- Without a file the correction stays as it was given. -/
theorem rfunc_kept {W : World Fn Kw} {A : Args Fn Kw} {o : Obj Fn Kw} (h : ocbInit W A = .ok o) (hf : o.filename = none) :
    o.rfunc = A.rfunc ∧ o.dtime = none := by
  obtain ⟨p, x, hp, hh, hx⟩ := ocbInit_inv h
  rw [ocbInit_eq W A hp hh hx] at h
  obtain ⟨p1, p2⟩ := p
  cases p1 with
  | some g =>
    obtain ⟨rows, times, fs, ks, -, -, -, -, -, e⟩ := loadObj_inv h (colsOf_flag _)
    rw [e] at hf
    cases hf
  | none =>
    simp only [Except.ok.injEq] at h
    subst h
    exact ⟨rfl, rfl⟩

/-- C124 is false for an object without a file that was given a correction: its text cannot be written. -/
theorem C124_no_file_refuted {W : World Fn Kw} {A : Args Fn Kw} {o : Obj Fn Kw} (h : ocbInit W A = .ok o)
    (hf : o.filename = none) {g : Fn} (hr : A.rfunc = .one g) (name : Fn → Name) (text : Kw → Name) :
    reprArgs name text o = .error .typeError := by
  obtain ⟨h1, h2⟩ := rfunc_kept h hf
  unfold reprArgs
  simp only [h1, h2, hr, bind, Except.bind, reprFns]

/-- C124 is false for every `EABoundary` without a file and made without a correction: its text cannot be written. -/
theorem C124_eab_refuted {W : World Fn Kw} {A : Args Fn Kw} {o : Obj Fn Kw} (h : eabInit W A = .ok o)
    (hf : o.filename = none) (hr : A.rfunc = .dflt) {i : Name} (hi : A.instrument = .text i) (name : Fn → Name)
    (text : Kw → Name) : reprArgs name text o = .error .typeError := by
  obtain ⟨A', h1, -, -, -, -, -, h2, -⟩ := eab_calls h
  exact C124_no_file_refuted h1 hf (h2 hr i hi) name text

/-! ### C125: the records and corrections that are shown -/

/-- C125: for a loaded object the first two and the last two records are shown, each once, in their order. -/
theorem C125_shown {n : ℕ} (hn : 1 ≤ n) :
    ∃ l, shown n = .ok l ∧ l.Pairwise (· < ·) ∧ ∀ i, i ∈ l ↔ i < n ∧ (i < 2 ∨ n ≤ i + 2) := by
  have key : ∀ l : List ℕ, ((l.mergeSort (· ≤ ·)).dedup).Pairwise (· < ·) ∧
      ∀ i, i ∈ (l.mergeSort (· ≤ ·)).dedup ↔ i ∈ l := by
    intro l
    constructor
    · have h1 : (l.mergeSort (· ≤ ·)).Pairwise (· ≤ ·) := by
        have := List.pairwise_mergeSort (le := fun a b : ℕ => decide (a ≤ b)) (fun a b c h1 h2 => by
          simp only [decide_eq_true_eq] at *; omega) (fun a b => by simp; omega) l
        exact this.imp fun h => by simpa using h
      have h2 := (List.Pairwise.sublist (List.dedup_sublist _) h1)
      have h3 := List.nodup_dedup (l.mergeSort (· ≤ ·))
      exact (h2.and h3).imp fun h => lt_of_le_of_ne h.1 h.2
    · intro i
      rw [List.mem_dedup, List.mem_mergeSort]
  unfold shown
  by_cases h1 : n = 1
  · rw [if_pos h1]
    exact ⟨[0], rfl, by simp, fun i => by simp; omega⟩
  · rw [if_neg h1]
    have e : Ocb.mapE (fun i => Ocb.pyIdx (List.range n) i) [0, 1, -2, -1] = .ok [0, 1, n - 2, n - 1] := by
      have idx : ∀ (i : ℤ) (k : ℕ), k < n → (i = k ∨ i = (k : ℤ) - n) → Ocb.pyIdx (List.range n) i = .ok k := by
        intro i k hk hi
        unfold Ocb.pyIdx Ocb.pyGet
        rw [List.length_range]
        rcases hi with rfl | rfl
        · simp [hk]
        · rw [if_neg (by omega), if_pos (by omega)]
          have : ((k : ℤ) - n + n).toNat = k := by omega
          simp [hk, this]
      simp only [Ocb.mapE]
      rw [idx 0 0 (by omega) (.inl rfl), idx 1 1 (by omega) (.inl rfl), idx (-2) (n - 2) (by omega) (.inr (by omega)),
        idx (-1) (n - 1) (by omega) (.inr (by omega))]
    rw [e]
    refine ⟨_, rfl, (key _).1, fun i => ?_⟩
    rw [(key _).2]
    simp only [List.mem_cons, List.not_mem_nil, or_false]
    omega

theorem lastPart_full (m s : Name) (h : '.' ∉ s) : lastPart (m ++ '.' :: s) = s := by
  unfold lastPart
  rw [List.reverse_append, List.reverse_cons, List.append_assoc, List.takeWhile_append_of_pos]
  · simp
  · intro c hc
    have : c ∈ s := List.mem_reverse.1 hc
    simp only [decide_eq_true_eq]
    rintro rfl
    exact h this

/-- C125: every correction in use is listed with the arguments that it is used with. -/
theorem C125_listed {mod short : Fn → Name} (hs : ∀ f, '.' ∉ short f) (text : Kw → Name) (l : List (Fn × Kw)) {f : Fn} {k : Kw}
    (h : (f, k) ∈ l) : (fullName mod short f, text k) ∈ listed mod short text l := by
  unfold listed
  rw [List.mem_flatMap]
  refine ⟨fullName mod short f, by rw [List.mem_dedup]; exact List.mem_map.2 ⟨_, h, rfl⟩, ?_⟩
  rw [List.mem_map]
  refine ⟨text k, ?_, rfl⟩
  rw [List.mem_dedup, List.mem_map]
  refine ⟨(f, k), List.mem_filter.2 ⟨h, ?_⟩, rfl⟩
  rw [fullName, lastPart_full _ _ (hs f)]
  simp

/-- C125 as far as it holds: what is listed is in use, if no two functions of different modules have the same name.
Missing: functions with the same name (`C125_only_refuted`). -/
theorem C125_only_partial {mod short : Fn → Name} (hs : ∀ f, '.' ∉ short f) (text : Kw → Name) (l : List (Fn × Kw))
    (hu : ∀ p ∈ l, ∀ q ∈ l, short p.1 = short q.1 → mod p.1 = mod q.1) {ff kk : Name}
    (h : (ff, kk) ∈ listed mod short text l) : ∃ f k, (f, k) ∈ l ∧ ff = fullName mod short f ∧ kk = text k := by
  unfold listed at h
  rw [List.mem_flatMap] at h
  obtain ⟨g, hg, h⟩ := h
  rw [List.mem_dedup, List.mem_map] at hg
  obtain ⟨p, hp, rfl⟩ := hg
  rw [List.mem_map] at h
  obtain ⟨k', hk', e⟩ := h
  cases e
  rw [List.mem_dedup, List.mem_map] at hk'
  obtain ⟨q, hq, rfl⟩ := hk'
  rw [List.mem_filter, fullName, lastPart_full _ _ (hs p.1)] at hq
  have e1 : short q.1 = short p.1 := by simpa using hq.2
  exact ⟨q.1, q.2, hq.1, by rw [fullName, fullName, e1, hu q hq.1 p hp e1], rfl⟩

/-- C125: nothing is listed twice. -/
theorem C125_once (mod short : Fn → Name) (text : Kw → Name) (l : List (Fn × Kw)) : (listed mod short text l).Nodup := by
  unfold listed
  rw [List.nodup_flatMap]
  refine ⟨fun ff _ => (List.nodup_dedup _).map fun a b h => (Prod.mk.inj h).2, ?_⟩
  refine (List.nodup_dedup _).imp ?_
  intro a b hab x hx hy
  obtain ⟨y, -, rfl⟩ := List.mem_map.1 hx
  obtain ⟨z, -, e⟩ := List.mem_map.1 hy
  exact hab (Prod.mk.inj e).1.symm

/-- C125 is false: of two functions with the same name in different modules each is listed with the arguments of the
other. -/
theorem C125_only_refuted {mod short : Fn → Name} (hs : ∀ f, '.' ∉ short f) (text : Kw → Name) (l : List (Fn × Kw)) {f g : Fn}
    {j k : Kw} (hf : (f, j) ∈ l) (hg : (g, k) ∈ l) (hsame : short f = short g) :
    (fullName mod short f, text k) ∈ listed mod short text l := by
  unfold listed
  rw [List.mem_flatMap]
  refine ⟨fullName mod short f, by rw [List.mem_dedup]; exact List.mem_map.2 ⟨_, hf, rfl⟩, ?_⟩
  rw [List.mem_map]
  refine ⟨text k, ?_, rfl⟩
  rw [List.mem_dedup, List.mem_map]
  refine ⟨(g, k), List.mem_filter.2 ⟨hg, ?_⟩, rfl⟩
  rw [fullName, lastPart_full _ _ (hs f), hsame]
  simp

/-! ### Examples -/

/-- The hypotheses of `C124_roundtrip_partial` are met by a file with three lines in order. -/
example : ∃ o times, ocbInit (demoWorld [(0, 2), (0, 4), (23, 58)]) (demoArgs none none) = .ok o ∧
    o.filename = some "a.ocb".toList ∧ o.dtime = some times ∧ times ≠ [] ∧ times.Pairwise (· ≤ ·) := by
  obtain ⟨o, h1, h3, -, h2, -⟩ := demo_loads [(0, 2), (0, 4), (23, 58)] (by decide) (by decide) none none
  refine ⟨o, _, h1, h3, h2, ?_, ?_⟩
  · simp [InWindow]
  · simp [InWindow, demoTime]

/-- A file out of order loses a record. -/
example (name : Bool → Name) (text : ℕ → Name) : ∃ o A' o',
    ocbInit (demoWorld [(0, 4), (0, 2), (0, 6)]) (demoArgs none none) = .ok o ∧ reprArgs name text o = .ok A' ∧
    ocbInit (demoWorld [(0, 4), (0, 2), (0, 6)]) A' = .ok o' ∧ o'.records < o.records := by
  obtain ⟨o, h1, h3, -, h2, -⟩ := demo_loads [(0, 4), (0, 2), (0, 6)] (by decide) (by decide) none none
  have h2' : o.dtime = some [demoTime (0, 4), demoTime (0, 2), demoTime (0, 6)] := by rw [h2]; simp [InWindow]
  obtain ⟨A', o', e1, e2, e3⟩ := C124_unsorted_refuted h1 h3 name text (.inl rfl) (.inl rfl) h2' rfl rfl
    (t := demoTime (0, 2)) (by simp) (.inl (by simp [demoTime]))
  exact ⟨o, A', o', h1, e1, e2, e3⟩

/-- A time window without lines -/
example (name : Bool → Name) (text : ℕ → Name) : ∃ o,
    ocbInit (demoWorld [(0, 2), (0, 4)]) (demoArgs (some (demoTime (1, 0))) none) = .ok o ∧
    reprArgs name text o = .error .indexError := by
  obtain ⟨o, h1, h3, -, h2, -⟩ := demo_loads [(0, 2), (0, 4)] (by decide) (by decide) (some (demoTime (1, 0))) none
  refine ⟨o, h1, C124_empty_refuted h1 h3 ?_ name text⟩
  rcases C126_states h1 with h | ⟨g, times, -, -, -, h4, h5, -⟩
  · rw [h.1] at h3; cases h3
  · rw [h2] at h4
    rw [← h5, ← Option.some.inj h4]
    simp [InWindow, demoTime]

/-- An `EABoundary` for a file that does not exist -/
example (name : Bool → Name) (text : ℕ → Name) : ∃ o,
    eabInit (demoWorld []) { demoArgs none none with filename := .text "b.ocb".toList, instrument := .text "image".toList }
      = .ok o ∧ reprArgs name text o = .error .typeError := by
  have e := C123_accepted_partial (demoWorld [])
    { demoArgs none none with filename := .text "b.ocb".toList, instrument := .text "image".toList } rfl rfl (by simp)
  have e' := C123_as_ocb (demoWorld [])
    { demoArgs none none with filename := .text "b.ocb".toList, instrument := .text "image".toList,
                              rfunc := .one (demoWorld []).circular } (by simp) (by
      intro f hf
      cases hf
      decide)
  obtain ⟨o, h1, h2⟩ := C126_no_data (demoWorld [])
    { demoArgs none none with filename := .text "b.ocb".toList, instrument := .text "image".toList,
                              rfunc := .one (demoWorld []).circular } (.inl rfl) (by simp [demoArgs])
    (.inr (.inr ⟨"b.ocb".toList, rfl, by decide, rfl⟩))
  rw [e'.symm.trans e.symm] at h1
  exact ⟨o, h1, C124_eab_refuted h1 h2.1 rfl rfl name text⟩

/-- Two functions with the same name in different modules: four lines for two uses -/
example : (listed (fun b : Bool => if b then "ocbpy.ocb_correction".toList else "mine".toList) (fun _ => "circular".toList)
    (fun k : ℕ => if k = 0 then "{}".toList else "{'r_add': 1.0}".toList) [(true, 0), (false, 1)]).length = 4 := by
  decide

end Ocb.Init
