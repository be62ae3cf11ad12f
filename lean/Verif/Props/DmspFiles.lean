import Verif.Props.Dmsp

/-!
# Properties C56 and C81-C83: which DMSP files and passes are used

Vocabulary: `Named` says that a name has the documented format, behind a directory without underscores; `dayLong` is the
length of a day in the unit of the times.
-/

set_option autoImplicit false

namespace Ocb.Dmsp

open Ocb.Files

/-- The documented format `dmsp-fII_ssj_precipitating-electrons-ions_YYYYMMDD_vXXX_boundaries.csv` with a directory in
front: the parts in order, the text of the satellite number and of the date. -/
def Named (n sat ymd : Name) : Prop :=
  ∃ dir kind rest : Name, n = dir ++ "dmsp-f".toList ++ (sat ++ "_ssj".toList ++ ('_' :: (kind ++ '_' :: (ymd ++ '_' :: rest))))
    ∧ '_' ∉ dir ∧ '_' ∉ sat ∧ '_' ∉ kind ∧ '_' ∉ ymd ∧
    ¬ "dmsp-f".toList <:+: sat ++ "_ssj".toList ++ ('_' :: (kind ++ '_' :: (ymd ++ '_' :: rest)))

theorem splitSub_none (sep n : Name) (h : ¬ sep <:+: n) : splitSub sep 0 n = [n] := by
  induction n with
  | nil => rfl
  | cons c cs ih =>
    rw [splitSub, if_neg, ih]
    · intro h'; exact h (h'.trans (List.suffix_cons c cs).isInfix)
    · intro h'; exact h (List.isPrefixOf_iff_prefix.1 h').isInfix

theorem splitSub_skip (sep a b : Name) : splitSub sep a.length (a ++ b) = splitSub sep 0 b := by
  induction a with
  | nil => rfl
  | cons c cs ih => rw [List.cons_append, List.length_cons, splitSub, ih]

theorem splitSub_here (b : Name) : splitSub "dmsp-f".toList 0 ("dmsp-f".toList ++ b) = [] :: splitSub "dmsp-f".toList 0 b := by
  have e : "dmsp-f".toList ++ b = 'd' :: ("msp-f".toList ++ b) := rfl
  rw [e, splitSub, if_pos]
  · congr 1
  · rw [List.isPrefixOf_iff_prefix, ← e]; exact List.prefix_append _ _

theorem splitSub_last (b : Name) : ∀ (a : Name) (k : ℕ), k ≤ a.length → ∃ pre, pre ≠ [] ∧
    splitSub "dmsp-f".toList k (a ++ "dmsp-f".toList ++ b) = pre ++ splitSub "dmsp-f".toList 0 b
  | [], k, hk => by
    obtain rfl : k = 0 := by simpa using hk
    exact ⟨[[]], by simp, by rw [List.nil_append, splitSub_here]; rfl⟩
  | c :: a, k + 1, hk => by
    obtain ⟨pre, h1, h2⟩ := splitSub_last b a k (by simpa using hk)
    exact ⟨pre, h1, by rw [List.cons_append, List.cons_append, splitSub, h2]⟩
  | c :: a, 0, _ => by
    rw [List.cons_append, List.cons_append, splitSub]
    split
    · rename_i h
      have h5 : 5 ≤ a.length := by
        rw [List.isPrefixOf_iff_prefix] at h
        obtain ⟨t, ht⟩ := h
        by_contra hlt
        push Not at hlt
        match a, hlt with
        | [], _ => simp at ht
        | [_], _ => simp at ht
        | [_, _], _ => simp at ht
        | [_, _, _], _ => simp at ht
        | [_, _, _, _], _ => simp at ht
      obtain ⟨pre, -, h2⟩ := splitSub_last b a 5 h5
      exact ⟨[] :: pre, by simp, by
        rw [show "dmsp-f".toList.length - 1 = 5 from rfl, h2]; rfl⟩
    · obtain ⟨pre, h1, h2⟩ := splitSub_last b a 0 (by simp)
      rw [h2]
      cases pre with
      | nil => exact absurd rfl h1
      | cons p ps => exact ⟨(c :: p) :: ps, by simp, rfl⟩

theorem splitSub_head (a b : Name) (h : '_' ∉ a) :
    ∃ t, splitSub "_ssj".toList 0 (a ++ "_ssj".toList ++ b) = a :: t := by
  induction a with
  | nil =>
    refine ⟨splitSub "_ssj".toList 0 b, ?_⟩
    have e : [] ++ "_ssj".toList ++ b = '_' :: ("ssj".toList ++ b) := rfl
    rw [e, splitSub, if_pos]
    · congr 1
    · rw [List.isPrefixOf_iff_prefix, ← e]; exact List.prefix_append _ _
  | cons c a ih =>
    rw [List.mem_cons, not_or] at h
    obtain ⟨t, ht⟩ := ih h.2
    refine ⟨t, ?_⟩
    rw [List.cons_append, List.cons_append, splitSub, if_neg, ht]
    intro hp
    rw [List.isPrefixOf_iff_prefix] at hp
    obtain ⟨s, hs⟩ := hp
    have e : "_ssj".toList ++ s = '_' :: ("ssj".toList ++ s) := rfl
    rw [e, List.cons.injEq] at hs
    exact h.1 hs.1

theorem satText_named {n sat ymd : Name} (h : Named n sat ymd) : satText n = sat := by
  obtain ⟨dir, kind, rest, rfl, -, h2, -, -, h5⟩ := h
  unfold satText
  obtain ⟨pre, -, e⟩ := splitSub_last (sat ++ "_ssj".toList ++ ('_' :: (kind ++ '_' :: (ymd ++ '_' :: rest)))) dir 0 (by simp)
  rw [e, splitSub_none _ _ h5]
  obtain ⟨t, ht⟩ := splitSub_head sat ('_' :: (kind ++ '_' :: (ymd ++ '_' :: rest))) h2
  rw [List.getLastD_eq_getLast?, List.getLast?_append]
  simp only [List.getLast?_singleton, Option.some_or, Option.getD_some, ht, List.headD_cons]

theorem date_named {n sat ymd : Name} (h : Named n sat ymd) : part (split n) 3 = .ok ymd := by
  obtain ⟨dir, kind, rest, rfl, h1, h2, h3, h4, -⟩ := h
  have hd : '_' ∉ dir ++ "dmsp-f".toList ++ sat := by
    simp only [List.mem_append, not_or]
    exact ⟨⟨h1, by decide⟩, h2⟩
  have e : dir ++ "dmsp-f".toList ++ (sat ++ "_ssj".toList ++ ('_' :: (kind ++ '_' :: (ymd ++ '_' :: rest))))
      = (dir ++ "dmsp-f".toList ++ sat) ++ '_' :: ("ssj".toList ++ '_' :: (kind ++ '_' :: (ymd ++ '_' :: rest))) := by
    have : "_ssj".toList = '_' :: "ssj".toList := rfl
    rw [this]
    simp only [List.append_assoc, List.cons_append]
  rw [e, split_cons _ _ hd, split_cons _ _ (by decide), split_cons _ _ h3, split_cons _ _ h4]
  rfl

theorem evaluate_named (env : Env) {n sat ymd : Name} (h : Named n sat ymd) {id t : ℤ} (hid : env.int sat = some id)
    (ht : env.date ymd = some t) (stime etime : Option ℤ) (sats : List ℤ) :
    evaluate env n stime etime sats =
      .ok (decide (id ∈ sats ∧ stime.getD env.y1900 ≤ t ∧ t < etime.getD env.now)) := by
  unfold evaluate timeTest
  simp only [satText_named h, date_named h, hid, ht, orValue, bind, Except.bind, pure, Except.pure]
  split
  · rename_i hm; simp [hm]
  · rename_i hm; simp [hm]

/-- C56: a file with a name of the documented format is accepted exactly when its satellite is requested and its date is
in the half-open interval from start to end. -/
theorem C56_half_open (env : Env) {n sat ymd : Name} (h : Named n sat ymd) {id t : ℤ} (hid : env.int sat = some id)
    (ht : env.date ymd = some t) (s e : ℤ) (sats : List ℤ) :
    ∃ b, evaluate env n (some s) (some e) sats = .ok b ∧ (b = true ↔ id ∈ sats ∧ s ≤ t ∧ t < e) :=
  ⟨_, evaluate_named env h hid ht _ _ _, by simp⟩

/-- C56: an open start or end accepts everything on that side from 1900 to now. -/
theorem C56_open (env : Env) {n sat ymd : Name} (h : Named n sat ymd) {id t : ℤ} (hid : env.int sat = some id)
    (ht : env.date ymd = some t) (hlo : env.y1900 ≤ t) (hhi : t < env.now) (s e : Option ℤ) (sats : List ℤ) :
    ∃ b, evaluate env n s e sats = .ok b ∧
      (b = true ↔ id ∈ sats ∧ (∀ s' ∈ s, s' ≤ t) ∧ ∀ e' ∈ e, t < e') := by
  refine ⟨_, evaluate_named env h hid ht _ _ _, ?_⟩
  cases s <;> cases e <;> simp [hlo, hhi]

/-- C56: two consecutive windows neither duplicate nor drop a file of the joint window. -/
theorem C56_windows (env : Env) {n sat ymd : Name} (h : Named n sat ymd) {id t : ℤ} (hid : env.int sat = some id)
    (ht : env.date ymd = some t) (s m e : ℤ) (hsm : s ≤ m) (hme : m ≤ e) (sats : List ℤ) :
    ∃ b1 b2 b, evaluate env n (some s) (some m) sats = .ok b1 ∧ evaluate env n (some m) (some e) sats = .ok b2 ∧
      evaluate env n (some s) (some e) sats = .ok b ∧ b = (b1 || b2) ∧ ¬ (b1 = true ∧ b2 = true) := by
  refine ⟨_, _, _, evaluate_named env h hid ht _ _ _, evaluate_named env h hid ht _ _ _,
    evaluate_named env h hid ht _ _ _, ?_, ?_⟩
  · rw [Bool.eq_iff_iff]
    simp only [Option.getD_some, decide_eq_true_eq, Bool.or_eq_true]
    grind
  · simp only [Option.getD_some, decide_eq_true_eq]
    grind

theorem filterE_ok (p : Name → Except PyErr Bool) (q : Name → Bool) (l : List Name) (h : ∀ n ∈ l, p n = .ok (q n)) :
    filterE p l = .ok (l.filter q) := by
  induction l with
  | nil => rfl
  | cons n l ih =>
    rw [filterE, h n (by simp), ih fun m hm => h m (by simp [hm])]
    simp only [bind, Except.bind, pure, Except.pure, List.filter_cons]

/-- C56 for the whole download: of an archive with names of the documented format, exactly the files of requested
satellites (all of 16, 17 and 18 by default) with a date in the window are kept, in order; another satellite number is
refused. -/
theorem C56_fetch (env : Env) (names : List Name) (id t : Name → ℤ)
    (h : ∀ n ∈ names, ∃ sat ymd, Named n sat ymd ∧ env.int sat = some (id n) ∧ env.date ymd = some (t n)
      ∧ id n ∈ [(16 : ℤ), 17, 18] ∧ env.y1900 ≤ t n ∧ t n < env.now) (s e : Option ℤ) (sats : Option (List ℤ)) :
    ((∀ l ∈ sats, ∀ i ∈ l, i = 16 ∨ i = 17 ∨ i = 18) → ∃ out, fetch env names s e sats = .ok out ∧
      out.Sublist names ∧ ∀ n ∈ names, (n ∈ out ↔ (∀ l ∈ sats, id n ∈ l) ∧ (∀ s' ∈ s, s' ≤ t n) ∧ ∀ e' ∈ e, t n < e')) ∧
    ((∃ l ∈ sats, ∃ i ∈ l, ¬ (i = 16 ∨ i = 17 ∨ i = 18)) → fetch env names s e sats = .error .valueError) := by
  constructor
  · intro hs
    have hall : (sats.getD [16, 17, 18]).all (· ∈ [(16 : ℤ), 17, 18]) = true := by
      rw [List.all_eq_true]
      intro i hi
      cases sats with
      | none => simpa using hi
      | some l => simpa using hs l rfl i hi
    unfold fetch
    rw [if_pos hall]
    split
    · rename_i hn
      obtain ⟨rfl, rfl, rfl⟩ := hn
      exact ⟨names, rfl, List.Sublist.refl _, fun n hn => by simp [hn]⟩
    · refine ⟨_, filterE_ok _ (fun n => decide (id n ∈ sats.getD [16, 17, 18] ∧ s.getD env.y1900 ≤ t n ∧
        t n < e.getD env.now)) _ ?_, List.filter_sublist, ?_⟩
      · intro n hn
        obtain ⟨sat, ymd, h1, h2, h3, -⟩ := h n hn
        exact evaluate_named env h1 h2 h3 _ _ _
      · intro n hn
        obtain ⟨sat, ymd, -, -, -, h4, h5, h6⟩ := h n hn
        rw [List.mem_filter]
        have hid : id n ∈ sats.getD [16, 17, 18] ↔ ∀ l ∈ sats, id n ∈ l := by
          cases sats with
          | none => simpa using h4
          | some l => simp
        rw [decide_eq_true_eq, hid]
        cases s <;> cases e <;> simp [hn, h5, h6]
  · rintro ⟨l, hl, i, hi, hni⟩
    obtain rfl : sats = some l := hl
    unfold fetch
    rw [if_neg]
    rw [List.all_eq_true]
    intro hall
    have := hall i hi
    simp at this
    exact hni this

/-- A name of the documented format, with a directory. -/
theorem named_ex : Named "SSJ/dmsp-f16_ssj_precipitating-electrons-ions_20101231_v1.1.2_boundaries.csv".toList
    "16".toList "20101231".toList :=
  ⟨"SSJ/".toList, "precipitating-electrons-ions".toList, "v1.1.2_boundaries.csv".toList, by decide, by decide, by decide,
    by decide, by decide, by decide⟩

/-! ### C81: a window that starts during a day -/

/-- C81 is false: a file is not selected by a window that starts later on the day of the file, although its data from
then on are in the window. -/
theorem C81_midday_refuted (env : Env) {n sat ymd : Name} (h : Named n sat ymd) {id t : ℤ} (hid : env.int sat = some id)
    (ht : env.date ymd = some t) (dayLong s e : ℤ) (hs : t < s ∧ s < t + dayLong) (he : s < e) (sats : List ℤ) :
    (∃ u, t ≤ u ∧ u < t + dayLong ∧ s ≤ u ∧ u < e) ∧ evaluate env n (some s) (some e) sats = .ok false := by
  refine ⟨⟨s, by omega, hs.2, le_rfl, he⟩, ?_⟩
  rw [evaluate_named env h hid ht, Option.getD_some]
  congr 1
  rw [decide_eq_false_iff_not]
  omega

/-- C81 for windows that start at midnight: a file of a requested satellite is selected exactly when some moment of its
day is in the window. -/
theorem C81_midnight_partial (env : Env) {n sat ymd : Name} (h : Named n sat ymd) {id t : ℤ} (hid : env.int sat = some id)
    (ht : env.date ymd = some t) (dayLong s e : ℤ) (hd : 0 < dayLong) (hs : dayLong ∣ s - t) (sats : List ℤ)
    (hm : id ∈ sats) : ∃ b, evaluate env n (some s) (some e) sats = .ok b ∧
      (b = true ↔ ∃ u, t ≤ u ∧ u < t + dayLong ∧ s ≤ u ∧ u < e) := by
  refine ⟨_, evaluate_named env h hid ht _ _ _, ?_⟩
  rw [decide_eq_true_eq, Option.getD_some, Option.getD_some]
  constructor
  · rintro ⟨-, h1, h2⟩
    exact ⟨t, le_rfl, by omega, h1, h2⟩
  · rintro ⟨u, h1, h2, h3, h4⟩
    obtain ⟨k, hk⟩ := hs
    have hk0 : k < 1 := by
      by_contra hc
      push Not at hc
      have : dayLong * 1 ≤ dayLong * k := Int.mul_le_mul_of_nonneg_left hc hd.le
      omega
    have : dayLong * k ≤ 0 := Int.mul_nonpos_of_nonneg_of_nonpos hd.le (by omega)
    exact ⟨hm, by omega, by omega⟩

/-! ### C82 and C83: the passes written -/

/-- All passes in the order of the files and of their lines. -/
def passes (files : List Csv) : List (Csv × Pass) := files.flatMap fun f => f.rows.map fun p => (f, p)

/-- Lines that describe a list of passes, one after the other. -/
def Lists (mag : ℝ → ℝ → ℝ → ℝ × ℝ) (b : Bd) (l : List (Csv × Pass)) (out : List Line) : Prop :=
  List.Forall₂ (fun fp x => Describes mag fp.1 fp.2 b x) l out

open Classical in
/-- The passes of one hemisphere. -/
noncomputable def ofHem (h : ℤ) (l : List (Csv × Pass)) : List (Csv × Pass) := l.filter fun fp => fp.2.hem = h

theorem ofHem_append (h : ℤ) (a b : List (Csv × Pass)) : ofHem h (a ++ b) = ofHem h a ++ ofHem h b := by
  unfold ofHem; rw [List.filter_append]

theorem Lists.append {mag : ℝ → ℝ → ℝ → ℝ × ℝ} {b : Bd} {l l' : List (Csv × Pass)} {o o' : List Line}
    (h : Lists mag b l o) (h' : Lists mag b l' o') : Lists mag b (l ++ l') (o ++ o') := by
  unfold Lists at *
  induction h with
  | nil => exact h'
  | cons a _ ih => exact .cons a ih

theorem key_ok {h : ℝ} (hh : h = 1 ∨ h = -1) : ∃ k : ℤ, key h = .ok k ∧ (k : ℝ) = h ∧ (k = 1 ∨ k = -1) := by
  rcases hh with rfl | rfl
  · exact ⟨1, by unfold key; rw [if_pos rfl], by norm_num, .inl rfl⟩
  · exact ⟨-1, by unfold key; rw [if_neg (by norm_num), if_pos rfl], by norm_num, .inr rfl⟩

theorem forall₂_split {α β : Type*} (R : α → β → Prop) : ∀ (l l' : List α) (o : List β), List.Forall₂ R (l ++ l') o →
    ∃ o1 o2, List.Forall₂ R l o1 ∧ List.Forall₂ R l' o2 ∧ o = o1 ++ o2
  | [], _, o, h => ⟨[], o, .nil, h, rfl⟩
  | a :: l, l', _, .cons (b := b) h hs => by
    obtain ⟨o1, o2, h1, h2, rfl⟩ := forall₂_split R l l' _ hs
    exact ⟨b :: o1, o2, .cons h h1, h2, rfl⟩

/-- What one pass adds. -/
theorem writeRows_ok (mag : ℝ → ℝ → ℝ → ℝ × ℝ) (f : Csv) : ∀ (ps : List Pass) (o : Out),
    (∀ p ∈ ps, p.hem = 1 ∨ p.hem = -1) → ∃ add : Out, writeRows mag f ps o = .ok (fun h b => o h b ++ add h b) ∧
      ∀ h b, Lists mag b (ofHem h (ps.map fun p => (f, p))) (add h b)
  | [], o, _ => ⟨fun _ _ => [], by rw [writeRows]; simp, fun _ _ => by unfold ofHem Lists; simp⟩
  | p :: ps, o, hp => by
    obtain ⟨k, hk, hk', -⟩ := key_ok (hp p (by simp))
    obtain ⟨l1, e1, d1⟩ := C55_circle mag f p .po
    obtain ⟨l2, e2, d2⟩ := C55_circle mag f p .eq
    obtain ⟨add, ha, hb⟩ := writeRows_ok mag f ps (write (write o k .po l1) k .eq l2) fun q hq => hp q (by simp [hq])
    refine ⟨fun h b => (if h = k then [match b with | .po => l1 | .eq => l2] else []) ++ add h b, ?_, ?_⟩
    · rw [writeRows]
      unfold writeOne
      simp only [e1, e2, hk, bind, Except.bind, pure, Except.pure, ha]
      congr 1
      funext h b
      rw [← List.append_assoc]
      congr 1
      unfold write
      by_cases hh : h = k
      · cases b <;> simp [hh]
      · cases b <;> simp [hh]
    · intro h b
      rw [List.map_cons, ← List.singleton_append, ofHem_append]
      refine Lists.append ?_ (hb h b)
      unfold ofHem Lists
      by_cases hh : h = k
      · have : p.hem = h := by rw [← hk', hh]
        rw [if_pos hh]
        cases b <;> simp [this, d1, d2]
      · have : p.hem ≠ h := by rw [← hk']; intro hc; exact hh (by exact_mod_cast hc.symm)
        rw [if_neg hh]
        simp [this]

theorem writeFiles_ok (mag : ℝ → ℝ → ℝ → ℝ × ℝ) : ∀ (files : List Csv) (o : Out),
    (∀ f ∈ files, readable f = true → ∀ p ∈ f.rows, p.hem = 1 ∨ p.hem = -1) →
    ∃ add : Out, writeFiles mag files o = .ok (fun h b => o h b ++ add h b) ∧
      ∀ h b, Lists mag b (ofHem h (passes (files.filter readable))) (add h b)
  | [], o, _ => ⟨fun _ _ => [], by rw [writeFiles]; simp, fun _ _ => by unfold ofHem Lists passes; simp⟩
  | f :: fs, o, hf => by
    rw [writeFiles]
    by_cases hr : readable f = true
    · obtain ⟨a1, h1, g1⟩ := writeRows_ok mag f f.rows o (hf f (by simp) hr)
      obtain ⟨a2, h2, g2⟩ := writeFiles_ok mag fs (fun h b => o h b ++ a1 h b) fun g hg => hf g (by simp [hg])
      refine ⟨fun h b => a1 h b ++ a2 h b, ?_, ?_⟩
      · rw [if_pos hr, h1]
        simp only [bind, Except.bind, h2, List.append_assoc]
      · intro h b
        rw [List.filter_cons, if_pos hr]
        have : passes (f :: fs.filter readable) = f.rows.map (fun p => (f, p)) ++ passes (fs.filter readable) := rfl
        rw [this, ofHem_append]
        exact (g1 h b).append (g2 h b)
    · obtain ⟨a2, h2, g2⟩ := writeFiles_ok mag fs o fun g hg => hf g (by simp [hg])
      exact ⟨a2, by rw [if_neg hr, h2], by rw [List.filter_cons, if_neg hr]; exact g2⟩

/-- C82 as far as it holds: when every file has at least two passes and as many columns as its header, and every pass a
hemisphere of 1 or -1, each of the four output files lists exactly the passes of its hemisphere, in order, one line for
each.  Missing: files with a single pass. -/
theorem C82_all_passes_partial (mag : ℝ → ℝ → ℝ → ℝ × ℝ) (files : List Csv) (hne : files ≠ [])
    (hw : ∀ f ∈ files, f.wide = true ∧ 2 ≤ f.rows.length) (hh : ∀ f ∈ files, ∀ p ∈ f.rows, p.hem = 1 ∨ p.hem = -1) :
    ∃ out, format mag files = .ok out ∧ ∀ h b, Lists mag b (ofHem h (passes files)) (out h b) := by
  obtain ⟨add, h1, h2⟩ := writeFiles_ok mag files (fun _ _ => []) fun f hf _ => hh f hf
  refine ⟨add, ?_, ?_⟩
  · unfold format
    rw [if_neg (by simpa using hne), h1]
    simp
  · have : files.filter readable = files := by
      rw [List.filter_eq_self]
      intro f hf
      unfold readable
      rw [(hw f hf).1]
      simpa using (hw f hf).2
    intro h b
    have := h2 h b
    rwa [‹files.filter readable = files›] at this

/-- C82 is false: the pass of a file with only one line of data is not written anywhere. -/
theorem C82_single_pass_refuted (mag : ℝ → ℝ → ℝ → ℝ × ℝ) (f : Csv) (p : Pass) (hf : f.rows = [p]) :
    format mag [f] = .ok fun _ _ => [] := by
  unfold format
  rw [if_neg (by simp), writeFiles, if_neg, writeFiles]
  unfold readable
  simp [hf]

/-- Times in increasing order, as the boundary classes require of their files. -/
def InOrder (l : List Line) : Prop := l.Pairwise fun a b => a.time ≤ b.time

/-- C83 is false: the lines are in the order of the files.  With the files sorted by name all files of one spacecraft come
before those of the next, so two days of two spacecraft already give a boundary file that runs back in time. -/
theorem C83_unsorted_refuted (mag : ℝ → ℝ → ℝ → ℝ × ℝ) (pre mid post : List Csv) (f g : Csv) (p q : Pass) (b : Bd)
    (hf : p ∈ f.rows) (hg : q ∈ g.rows) (h : ℤ) (hp : p.hem = h) (hq : q.hem = h)
    (hw : ∀ x ∈ pre ++ f :: mid ++ g :: post, x.wide = true ∧ 2 ≤ x.rows.length)
    (hh : ∀ x ∈ pre ++ f :: mid ++ g :: post, ∀ y ∈ x.rows, y.hem = 1 ∨ y.hem = -1)
    (hpb : ∀ t, t = f.date + (p.ut b).1 ∨ t = f.date + (p.ut b).2 → ∀ u, u = g.date + (q.ut b).1 ∨ u = g.date + (q.ut b).2 →
      u < t) :
    ∃ out, format mag (pre ++ f :: mid ++ g :: post) = .ok out ∧ ¬ InOrder (out h b) := by
  obtain ⟨out, h1, h2⟩ := C82_all_passes_partial mag _ (by simp) hw hh
  refine ⟨out, h1, fun ho => ?_⟩
  have hl := h2 h b
  have e : passes (pre ++ f :: mid ++ g :: post) = passes (pre ++ [f]) ++ passes (mid ++ g :: post) := by
    unfold passes
    rw [← List.flatMap_append]
    simp
  rw [e, ofHem_append] at hl
  unfold Lists at hl
  obtain ⟨o1, o2, hl1, hl2, ho12⟩ : ∃ o1 o2, List.Forall₂ (fun fp x => Describes mag fp.1 fp.2 b x)
      (ofHem h (passes (pre ++ [f]))) o1 ∧ List.Forall₂ (fun fp x => Describes mag fp.1 fp.2 b x)
      (ofHem h (passes (mid ++ g :: post))) o2 ∧ out h b = o1 ++ o2 :=
    forall₂_split _ _ _ _ hl
  have mem : ∀ (l : List (Csv × Pass)) (o : List Line) (fp : Csv × Pass),
      List.Forall₂ (fun fp x => Describes mag fp.1 fp.2 b x) l o → fp ∈ l → ∃ x ∈ o, Describes mag fp.1 fp.2 b x := by
    intro l o fp hlo hm
    induction hlo with
    | nil => simp at hm
    | cons a _ ih =>
      rcases List.mem_cons.1 hm with rfl | hm
      · exact ⟨_, by simp, a⟩
      · obtain ⟨x, hx, hd⟩ := ih hm
        exact ⟨x, by simp [hx], hd⟩
  obtain ⟨x, hx, dx⟩ := mem _ _ (f, p) hl1 (by unfold ofHem passes; simp [hf, hp])
  obtain ⟨y, hy, dy⟩ := mem _ _ (g, q) hl2 (by unfold ofHem passes; simp [hg, hq])
  unfold InOrder at ho
  rw [ho12, List.pairwise_append] at ho
  have hxy := ho.2.2 x hx y hy
  have tx := dx.2.2.1
  have ty := dy.2.2.1
  have a1 := hpb _ (.inl rfl) _ (.inl rfl)
  have a2 := hpb _ (.inr rfl) _ (.inr rfl)
  simp only at tx ty
  linarith

/-- C83 as far as it holds: with the passes of a hemisphere in increasing order of time over all files, as for one
spacecraft in order of date, the boundary files are in order. -/
theorem C83_sorted_partial (mag : ℝ → ℝ → ℝ → ℝ × ℝ) (files : List Csv) (hne : files ≠ [])
    (hw : ∀ f ∈ files, f.wide = true ∧ 2 ≤ f.rows.length) (hh : ∀ f ∈ files, ∀ p ∈ f.rows, p.hem = 1 ∨ p.hem = -1)
    (h : ℤ) (b : Bd) (hs : (ofHem h (passes files)).Pairwise fun x y =>
      x.1.date + (x.2.ut b).1 ≤ y.1.date + (y.2.ut b).1 ∧ x.1.date + (x.2.ut b).2 ≤ y.1.date + (y.2.ut b).2) :
    ∃ out, format mag files = .ok out ∧ InOrder (out h b) := by
  obtain ⟨out, h1, h2⟩ := C82_all_passes_partial mag files hne hw hh
  refine ⟨out, h1, ?_⟩
  have hl := h2 h b
  unfold Lists at hl
  unfold InOrder
  generalize ofHem h (passes files) = l at *
  generalize out h b = o at *
  induction hl with
  | nil => exact .nil
  | @cons a x l o ha hlo ih =>
    rw [List.pairwise_cons] at hs ⊢
    refine ⟨?_, ih hs.2⟩
    intro y hy
    obtain ⟨c, hc, hd⟩ : ∃ c ∈ l, Describes mag c.1 c.2 b y := by
      clear ih hs h2 h1
      induction hlo with
      | nil => simp at hy
      | cons a' _ ih' =>
        rcases List.mem_cons.1 hy with rfl | hy
        · exact ⟨_, by simp, a'⟩
        · obtain ⟨c, hc, hd⟩ := ih' hy
          exact ⟨c, by simp [hc], hd⟩
    have := hs.1 c hc
    have t1 := ha.2.2.1
    have t2 := hd.2.2.1
    linarith

/-- The hypotheses of the last theorems meet: two days of F16 and then the first day of F17, two passes a day. -/
example : ∃ (p q : Pass) (f g k : Csv), (∀ x ∈ [f, g, k], x.wide = true ∧ 2 ≤ x.rows.length) ∧
    (∀ x ∈ [f, g, k], ∀ y ∈ x.rows, y.hem = 1 ∨ y.hem = -1) ∧ p ∈ g.rows ∧ q ∈ k.rows ∧ p.hem = q.hem ∧
    ∀ t, t = g.date + (p.ut .po).1 ∨ t = g.date + (p.ut .po).2 → ∀ u, u = k.date + (q.ut .po).1 ∨ u = k.date + (q.ut .po).2 →
      u < t := by
  refine ⟨⟨1, 4, fun _ => (10, 20), fun _ => (70, 70), fun _ => (0, 90)⟩, ⟨1, 4, fun _ => (10, 20), fun _ => (70, 70),
    fun _ => (0, 90)⟩, ⟨16, 0, true, [⟨1, 4, fun _ => (10, 20), fun _ => (70, 70), fun _ => (0, 90)⟩,
    ⟨-1, 4, fun _ => (3000, 3100), fun _ => (70, 70), fun _ => (0, 90)⟩]⟩,
    ⟨16, 86400, true, [⟨1, 4, fun _ => (10, 20), fun _ => (70, 70), fun _ => (0, 90)⟩,
    ⟨-1, 4, fun _ => (3000, 3100), fun _ => (70, 70), fun _ => (0, 90)⟩]⟩,
    ⟨17, 0, true, [⟨1, 4, fun _ => (10, 20), fun _ => (70, 70), fun _ => (0, 90)⟩,
    ⟨-1, 4, fun _ => (3000, 3100), fun _ => (70, 70), fun _ => (0, 90)⟩]⟩, ?_, ?_, by simp, by simp, rfl, ?_⟩
  · simp
  · simp
  · rintro t (rfl | rfl) u (rfl | rfl) <;> norm_num

end Ocb.Dmsp
