import Verif.Props.Fetch
import Verif.Props.DmspFiles

/-!
# C130-C132: streams and files after a download of DMSP SSJ data
-/

set_option autoImplicit false

namespace Ocb.Fetch

open Ocb.Files Ocb.Dmsp

/-! ## Lemmas -/

theorem remove_mem {p : Name} {s : Sys} (h : p ∈ s.files) :
    remove p s = ({ s with files := s.files.filter (· ≠ p) }, .ok ()) := by
  unfold remove
  rw [if_pos h]

theorem remove_not {p : Name} {s : Sys} (h : p ∉ s.files) : remove p s = (s, .error .ioError) := by
  unfold remove
  rw [if_neg h]

theorem remove_streams (p : Name) (s : Sys) : (remove p s).1.out = s.out ∧ (remove p s).1.err = s.err ∧
    (remove p s).1.dirs = s.dirs := by
  unfold remove
  split <;> exact ⟨rfl, rfl, rfl⟩

theorem extract_streams (dir n : Name) (s : Sys) : (extract dir n s).out = s.out ∧ (extract dir n s).err = s.err := by
  unfold extract
  split <;> exact ⟨rfl, rfl⟩

theorem extractAll_cons (dir n : Name) (ns : List Name) (s : Sys) :
    extractAll dir (n :: ns) s = extractAll dir ns (extract dir n s) := rfl

theorem extractAll_streams (dir : Name) (ns : List Name) : ∀ s : Sys,
    (extractAll dir ns s).out = s.out ∧ (extractAll dir ns s).err = s.err := by
  induction ns with
  | nil => exact fun s => ⟨rfl, rfl⟩
  | cons n ns ih =>
    intro s
    rw [extractAll_cons]
    exact ⟨(ih _).1.trans (extract_streams dir n s).1, (ih _).2.trans (extract_streams dir n s).2⟩

theorem extractAll_files (dir : Name) (ns : List Name) : ∀ (s : Sys) (p : Name), p ∈ (extractAll dir ns s).files ↔
    p ∈ s.files ∨ ∃ n ∈ ns, n.getLast? ≠ some '/' ∧ p = join dir n := by
  induction ns with
  | nil => intro s p; simp [extractAll]
  | cons n ns ih =>
    intro s p
    rw [extractAll_cons, ih]
    unfold extract
    by_cases h : n.getLast? = some '/'
    · rw [if_pos h]
      simp [h]
    · rw [if_neg h]
      simp only [List.mem_cons, exists_eq_or_imp]
      grind

theorem extractSome_eq (test : Name → Except PyErr Bool) (dir : Name) (ns : List Name) : ∀ s : Sys,
    (∀ sel, filterE test ns = .ok sel → extractSome test dir ns s = (extractAll dir sel s, .ok (sel.map (extracted dir)))) ∧
    (∀ e, filterE test ns = .error e → ∃ sel, sel.Sublist ns ∧ extractSome test dir ns s = (extractAll dir sel s, .error e)) := by
  induction ns with
  | nil =>
    intro s
    constructor
    · intro sel h
      rw [filterE] at h
      cases h
      rfl
    · intro e h
      rw [filterE] at h
      cases h
  | cons n ns ih =>
    intro s
    rw [filterE, extractSome]
    cases hb : test n with
    | error e =>
      simp only [bind, Except.bind]
      refine ⟨fun _ h => (by cases h), fun e' h => ?_⟩
      cases h
      exact ⟨[], by simp, rfl⟩
    | ok b =>
      simp only [bind, Except.bind, pure, Except.pure]
      obtain ⟨ih1, ih2⟩ := ih (if b then extract dir n s else s)
      cases hf : filterE test ns with
      | error e =>
        obtain ⟨sel, h1, h2⟩ := ih2 e hf
        refine ⟨fun _ h => (by cases h), fun e' h => ?_⟩
        cases h
        refine ⟨if b then n :: sel else sel, ?_, ?_⟩
        · cases b
          · exact h1.cons _
          · exact h1.cons_cons _
        · rw [h2]
          cases b <;> rfl
      | ok sel =>
        refine ⟨fun sel' h => ?_, fun _ h => by cases h⟩
        cases h
        rw [ih1 sel hf]
        cases b <;> rfl

theorem finish_streams (rm : Bool) (arch : Name) (out : List Name) (s : Sys) :
    (finish rm arch out s).1.out = s.out ∧ (finish rm arch out s).1.err = s.err := by
  unfold finish
  split
  · have := remove_streams arch s
    split <;> rename_i h <;> rw [h] at this <;> exact ⟨this.1, this.2.1⟩
  · exact ⟨rfl, rfl⟩

theorem extractSome_streams (test : Name → Except PyErr Bool) (dir : Name) (ns : List Name) (s : Sys) :
    (extractSome test dir ns s).1.out = s.out ∧ (extractSome test dir ns s).1.err = s.err := by
  obtain ⟨h1, h2⟩ := extractSome_eq test dir ns s
  cases h : filterE test ns with
  | ok sel => rw [h1 sel h]; exact extractAll_streams _ _ _
  | error e =>
    obtain ⟨sel, -, h3⟩ := h2 e h
    rw [h3]
    exact extractAll_streams _ _ _

theorem unpack_streams (W : World) (A : Args) (dir arch : Name) (s : Sys) :
    (unpack W A dir arch s).1.out = s.out ∧ (unpack W A dir arch s).1.err = s.err := by
  unfold unpack
  split
  · split
    · exact ⟨rfl, rfl⟩
    · rename_i names _
      split
      · have h1 := finish_streams A.rmTemp arch (names.map (join dir)) (extractAll dir names s)
        have h2 := extractAll_streams dir names s
        exact ⟨h1.1.trans h2.1, h1.2.trans h2.2⟩
      · have h2 := extractSome_streams (fun n => evaluate W.env n A.stime A.etime (A.sats.getD [16, 17, 18])) dir names s
        split
        · rename_i h
          rw [h] at h2
          exact h2
        · rename_i s' out h
          rw [h] at h2
          have h1 := finish_streams A.rmTemp arch out s'
          exact ⟨h1.1.trans h2.1, h1.2.trans h2.2⟩
  · exact ⟨rfl, rfl⟩

theorem afterZen_streams (W : World) (A : Args) (dir msg : Name) (s : Sys) :
    (afterZen W A dir msg s).1.out = s.out ∧ (afterZen W A dir msg s).1.err = s.err := by
  unfold afterZen
  split
  · have h := remove_streams (sumsFile dir) s
    split
    · rename_i hr
      rw [hr] at h
      exact ⟨h.1, h.2.1⟩
    · rename_i hr
      rw [hr] at h
      split
      · exact ⟨h.1, h.2.1⟩
      · split
        · exact ⟨h.1, h.2.1⟩
        · have h1 := unpack_streams W A dir
          exact ⟨(h1 _ _).1.trans h.1, (h1 _ _).2.trans h.2.1⟩
  · exact ⟨rfl, rfl⟩

/-! ## C130: the output streams -/

/-- The arguments pass the tests before the download, which goes to the directory `dir`. -/
def Accepted (W : World) (A : Args) (s : Sys) (dir : Name) : Prop :=
  (∀ l ∈ A.sats, ∀ i ∈ l, i = 16 ∨ i = 17 ∨ i = 18) ∧ (A.dir = some dir ∨ (A.dir = none ∧ W.home = .ok dir)) ∧ dir ∈ s.dirs

theorem goodSats_iff (A : Args) : goodSats A = true ↔ ∀ l ∈ A.sats, ∀ i ∈ l, i = 16 ∨ i = 17 ∨ i = 18 := by
  unfold goodSats
  rw [List.all_eq_true]
  cases A.sats with
  | none => simp
  | some l => simp

theorem outDir_iff (W : World) (A : Args) (dir : Name) :
    outDir W A = .ok dir ↔ A.dir = some dir ∨ (A.dir = none ∧ W.home = .ok dir) := by
  unfold outDir
  cases A.dir with
  | none => simp
  | some d => simp

theorem fetchFiles_accepted {W : World} {A : Args} {s : Sys} {dir : Name} (h : Accepted W A s dir) :
    fetchFiles W A s = download W A dir s := by
  obtain ⟨h1, h2, h3⟩ := h
  unfold fetchFiles
  rw [if_pos ((goodSats_iff A).2 h1)]
  simp only [(outDir_iff W A dir).2 h2, if_pos h3]

/-- C130: a call that fails before the download leaves everything as it was, and a wrong satellite or a missing directory
is a ValueError. -/
theorem C130_refused (W : World) (A : Args) (s : Sys) (h : ∀ dir, ¬ Accepted W A s dir) :
    (fetchFiles W A s).1 = s ∧
    ((A.dir ≠ none ∨ (∃ d, W.home = .ok d)) → (fetchFiles W A s).2 = .raised .valueError) := by
  unfold fetchFiles
  split
  · rename_i h1
    cases hd : outDir W A with
    | error e =>
      refine ⟨rfl, ?_⟩
      intro h2
      exfalso
      unfold outDir at hd
      rcases h2 with h2 | ⟨d, h2⟩
      · cases hA : A.dir with
        | none => exact h2 hA
        | some d => simp [hA] at hd
      · cases hA : A.dir with
        | none => simp [hA, h2] at hd
        | some d => simp [hA] at hd
    | ok dir =>
      simp only
      split
      · rename_i h3
        exact absurd ⟨(goodSats_iff A).1 h1, (outDir_iff W A dir).1 hd, h3⟩ (h dir)
      · exact ⟨rfl, fun _ => rfl⟩
  · exact ⟨rfl, fun _ => rfl⟩

/-- C130, what holds: if the download does not raise, both streams are those of the interpreter after the call, whatever
the call returns or raises; so streams that were not redirected before are not redirected after it. -/
theorem C130_streams_partial (W : World) (A : Args) (s : Sys) (dir : Name) (h : Accepted W A s dir) (msg : Name)
    (hm : (W.zen s.files A.doi dir).2 = .ok msg) :
    (fetchFiles W A s).1.out = .console ∧ (fetchFiles W A s).1.err = .console := by
  rw [fetchFiles_accepted h]
  unfold download
  cases hz : W.zen s.files A.doi dir with
  | mk fs r =>
    rw [hz] at hm
    simp only at hm
    subst hm
    exact afterZen_streams W A dir msg _

/-- C130: if the download raises, the exception is passed on, and both streams are still captured. -/
theorem C130_captured (W : World) (A : Args) (s : Sys) (dir : Name) (h : Accepted W A s dir) (e : PyErr)
    (hm : (W.zen s.files A.doi dir).2 = .error e) :
    (fetchFiles W A s).2 = .raised e ∧ (fetchFiles W A s).1.out = .buffer ∧ (fetchFiles W A s).1.err = .buffer := by
  rw [fetchFiles_accepted h]
  unfold download
  cases hz : W.zen s.files A.doi dir with
  | mk fs r =>
    rw [hz] at hm
    simp only at hm
    subst hm
    exact ⟨rfl, rfl, rfl⟩

/-- C130 refuted: a failing download leaves the output of the process captured. -/
theorem C130_failure_refuted : ¬ ∀ (W : World) (A : Args) (s : Sys), (fetchFiles W A s).1.out = s.out := by
  intro h
  have h0 : Accepted (exWorld [] [] (.error .ioError)) (exArgs none none true) (exSys []) "/d".toList :=
    ⟨by simp [exArgs], .inl rfl, by decide⟩
  have h1 := h (exWorld [] [] (.error .ioError)) (exArgs none none true) (exSys [])
  rw [(C130_captured _ _ _ _ h0 .ioError rfl).2.1] at h1
  cases h1

/-- C130 refuted: streams that the user had redirected are not restored, even if the download does not raise. -/
theorem C130_redirected_refuted : ¬ ∀ (W : World) (A : Args) (s : Sys) (dir msg : Name), Accepted W A s dir →
    (W.zen s.files A.doi dir).2 = .ok msg → (fetchFiles W A s).1.out = s.out := by
  intro h
  have h0 : Accepted (exWorld [] [] (.ok [])) (exArgs none none true)
      ⟨[], ["/d".toList], .other 0, .console⟩ "/d".toList := ⟨by simp [exArgs], .inl rfl, by decide⟩
  have h1 := h (exWorld [] [] (.ok [])) (exArgs none none true) ⟨[], ["/d".toList], .other 0, .console⟩ "/d".toList []
    h0 rfl
  rw [(C130_streams_partial _ _ _ _ h0 [] rfl).1] at h1
  cases h1

/-! ## C131: the files -/

/-- The words of the message that give the link: the word after the first "Link:" -/
def LinkIn (msg link : Name) : Prop :=
  ∃ pre post, Smag.words msg = pre ++ "Link:".toList :: link :: post ∧ "Link:".toList ∉ pre

/-- The download worked: the message tells so, and the list of checksums and the archive named in the message are in
the directory. -/
structure Downloaded (W : World) (A : Args) (s : Sys) (dir : Name) (fs : List Name) (arch : Name) : Prop where
  accepted : Accepted W A s dir
  zen : ∃ msg, W.zen s.files A.doi dir = (fs, .ok msg) ∧
    ("Checksum is correct".toList <:+: msg ∨ "already downloaded correctly".toList <:+: msg) ∧
    ∃ link z, LinkIn msg link ∧ LastArchive link z ∧ arch = join dir z
  sums : join dir "md5sums.txt".toList ∈ fs
  arch_mem : arch ∈ fs
  arch_ne : arch ≠ join dir "md5sums.txt".toList

theorem goodMsg_iff (msg : Name) : goodMsg msg = true ↔
    "Checksum is correct".toList <:+: msg ∨ "already downloaded correctly".toList <:+: msg := by
  unfold goodMsg
  rw [Bool.or_eq_true, contains_iff, contains_iff]

theorem linkWord_iff (ws : List Name) (link : Name) : linkWord ws = some link ↔
    ∃ pre post, ws = pre ++ "Link:".toList :: link :: post ∧ "Link:".toList ∉ pre := by
  unfold linkWord
  generalize "Link:".toList = w
  constructor
  · intro h
    split at h
    · rename_i hm
      obtain ⟨pre, post, h1, h2⟩ := List.eq_append_cons_of_mem hm
      refine ⟨pre, post.drop 1, ?_, h2⟩
      rw [h1, List.idxOf_append_of_notMem h2, List.idxOf_cons_self] at h
      simp only [Nat.add_zero] at h
      rw [List.getElem?_append_right (by omega)] at h
      have h3 : pre.length + 1 - pre.length = 1 := by omega
      rw [h3] at h
      cases post with
      | nil => simp at h
      | cons b post =>
        have : b = link := by simpa using h
        rw [h1, this]
        rfl
    · cases h
  · rintro ⟨pre, post, rfl, h⟩
    rw [if_pos (by simp), List.idxOf_append_of_notMem h, List.idxOf_cons_self, List.getElem?_append_right (by omega)]
    have h3 : pre.length + 0 + 1 - pre.length = 1 := by omega
    rw [h3]
    rfl

/-- What is left of the files when the archive is opened -/
def opened (s : Sys) (dir : Name) (fs : List Name) : Sys :=
  { s with files := fs.filter (· ≠ sumsFile dir), out := .console, err := .console }

theorem fetchFiles_downloaded {W : World} {A : Args} {s : Sys} {dir : Name} {fs : List Name} {arch : Name}
    (h : Downloaded W A s dir fs arch) : fetchFiles W A s = unpack W A dir arch (opened s dir fs) := by
  obtain ⟨msg, h1, h2, link, z, h3, h4, rfl⟩ := h.zen
  rw [fetchFiles_accepted h.accepted]
  unfold download
  simp only [h1]
  unfold afterZen
  rw [if_pos ((goodMsg_iff msg).2 h2)]
  rw [remove_mem (show sumsFile dir ∈ _ from h.sums)]
  simp only [(linkWord_iff _ _).2 h3, (C129_archive link z).2 h4]
  rfl

theorem opened_mem {W : World} {A : Args} {s : Sys} {dir : Name} {fs : List Name} {arch : Name}
    (h : Downloaded W A s dir fs arch) : arch ∈ (opened s dir fs).files := by
  show arch ∈ fs.filter _
  rw [List.mem_filter]
  exact ⟨h.arch_mem, decide_eq_true h.arch_ne⟩

/-- The name returned for a chosen file -/
def returned (A : Args) (dir n : Name) : Name := if getAll A then join dir n else extracted dir n

theorem finish_ok (rm : Bool) (arch : Name) (out : List Name) (s : Sys) (h : arch ∈ s.files) :
    ∃ s', finish rm arch out s = (s', .done out) ∧ ∀ p, p ∈ s'.files ↔ p ∈ s.files ∧ (rm = true → p ≠ arch) := by
  unfold finish
  cases rm with
  | false => exact ⟨s, rfl, by simp⟩
  | true =>
    rw [if_pos rfl, remove_mem h]
    exact ⟨_, rfl, by simp⟩

theorem unpack_eq (W : World) (A : Args) (dir arch : Name) (s : Sys) (names : List Name) (hg : goodSats A = true)
    (ha : arch ∈ s.files) (hn : W.archive arch = .ok names) :
    (∀ sel, Dmsp.fetch W.env names A.stime A.etime A.sats = .ok sel →
      unpack W A dir arch s = finish A.rmTemp arch (sel.map (returned A dir)) (extractAll dir sel s)) ∧
    (∀ e, Dmsp.fetch W.env names A.stime A.etime A.sats = .error e → ∃ sel, sel.Sublist names ∧
      unpack W A dir arch s = (extractAll dir sel s, .raised e)) := by
  unfold unpack Dmsp.fetch
  unfold goodSats at hg
  rw [if_pos ha, if_pos hg]
  simp only [hn]
  by_cases hga : A.sats = none ∧ A.stime = none ∧ A.etime = none
  · have hga' : getAll A = true := by unfold getAll; simpa using hga
    rw [if_pos hga, if_pos hga']
    refine ⟨fun sel h => ?_, fun e h => by cases h⟩
    cases h
    have : returned A dir = join dir := by
      funext n
      unfold returned
      rw [if_pos hga']
    rw [this]
  · have hga' : ¬ getAll A = true := by unfold getAll; simpa using hga
    rw [if_neg hga, if_neg hga']
    have : returned A dir = extracted dir := by
      funext n
      unfold returned
      rw [if_neg hga']
    rw [this]
    obtain ⟨h1, h2⟩ := extractSome_eq (fun n => evaluate W.env n A.stime A.etime (A.sats.getD [16, 17, 18])) dir names s
    refine ⟨fun sel h => ?_, fun e h => ?_⟩
    · rw [h1 sel h]
    · obtain ⟨sel, h3, h4⟩ := h2 e h
      exact ⟨sel, h3, by rw [h4]⟩

/-- C131: a good download with names that can be read returns the chosen files, and afterwards the files are those of
the download without the checksums, with the chosen files, and without the archive if it is to be removed. -/
theorem C131_returns (W : World) (A : Args) (s : Sys) (dir : Name) (fs : List Name) (arch : Name)
    (h : Downloaded W A s dir fs arch) (names sel : List Name) (hn : W.archive arch = .ok names)
    (hs : Dmsp.fetch W.env names A.stime A.etime A.sats = .ok sel) (hp : ∀ n ∈ sel, n.getLast? ≠ some '/') :
    ∃ s', fetchFiles W A s = (s', .done (sel.map (join dir))) ∧
      ∀ p, p ∈ s'.files ↔ ((p ∈ fs ∧ p ≠ join dir "md5sums.txt".toList) ∨ ∃ n ∈ sel, p = join dir n) ∧
        (A.rmTemp = true → p ≠ arch) := by
  rw [fetchFiles_downloaded h]
  rw [(unpack_eq W A dir arch _ names ((goodSats_iff A).2 h.accepted.1) (opened_mem h) hn).1 sel hs]
  have hr : sel.map (returned A dir) = sel.map (join dir) := by
    apply List.map_congr_left
    intro n hn
    unfold returned extracted
    rw [if_neg (hp n hn)]
    simp
  rw [hr]
  obtain ⟨s', h1, h2⟩ := finish_ok A.rmTemp arch (sel.map (join dir)) (extractAll dir sel (opened s dir fs))
    ((extractAll_files dir sel _ _).2 (.inl (opened_mem h)))
  refine ⟨s', h1, fun p => ?_⟩
  rw [h2, extractAll_files]
  have h3 : p ∈ (opened s dir fs).files ↔ p ∈ fs ∧ p ≠ join dir "md5sums.txt".toList := by
    show p ∈ fs.filter _ ↔ _
    rw [List.mem_filter, decide_eq_true_eq]
    rfl
  rw [h3]
  have h4 : (∃ n ∈ sel, n.getLast? ≠ some '/' ∧ p = join dir n) ↔ ∃ n ∈ sel, p = join dir n :=
    ⟨fun ⟨n, a, _, b⟩ => ⟨n, a, b⟩, fun ⟨n, a, b⟩ => ⟨n, a, hp n a, b⟩⟩
  rw [h4]

/-- C131: a call returns only after a good download of an archive whose names can be read. -/
theorem C131_only (W : World) (A : Args) (s s' : Sys) (out : List Name) (h : fetchFiles W A s = (s', .done out)) :
    ∃ dir fs arch names sel, Downloaded W A s dir fs arch ∧ W.archive arch = .ok names ∧
      Dmsp.fetch W.env names A.stime A.etime A.sats = .ok sel ∧ out = sel.map (returned A dir) := by
  unfold fetchFiles at h
  split at h
  swap
  · cases h
  rename_i hg
  split at h
  · cases h
  rename_i dir hd
  split at h
  swap
  · cases h
  rename_i hm
  have hacc : Accepted W A s dir := ⟨(goodSats_iff A).1 hg, (outDir_iff W A dir).1 hd, hm⟩
  unfold download at h
  split at h
  · cases h
  rename_i fs msg hz
  unfold afterZen at h
  split at h
  swap
  · cases h
  rename_i hgm
  by_cases hsum : sumsFile dir ∈ fs
  swap
  · rw [remove_not hsum] at h
    cases h
  rw [remove_mem hsum] at h
  simp only at h
  split at h
  · cases h
  rename_i link hl
  split at h
  · cases h
  rename_i z hzp
  by_cases ha : join dir z ∈ fs.filter (· ≠ sumsFile dir)
  swap
  · unfold unpack at h
    rw [if_neg ha] at h
    cases h
  rw [List.mem_filter] at ha
  have hD : Downloaded W A s dir fs (join dir z) :=
    ⟨hacc, ⟨msg, hz, (goodMsg_iff msg).1 hgm, link, z, (linkWord_iff _ _).1 hl, (C129_archive _ _).1 hzp, rfl⟩, hsum, ha.1,
      of_decide_eq_true ha.2⟩
  have h' : unpack W A dir (join dir z) (opened s dir fs) = (s', .done out) := h
  cases hn : W.archive (join dir z) with
  | error e =>
    unfold unpack at h'
    rw [if_pos (opened_mem hD)] at h'
    simp only [hn] at h'
    cases h'
  | ok names =>
    obtain ⟨u1, u2⟩ := unpack_eq W A dir (join dir z) (opened s dir fs) names hg (opened_mem hD) hn
    cases hf : Dmsp.fetch W.env names A.stime A.etime A.sats with
    | error e =>
      obtain ⟨sel, -, h3⟩ := u2 e hf
      rw [h3] at h'
      cases h'
    | ok sel =>
      rw [u1 sel hf] at h'
      obtain ⟨s'', h4, -⟩ := finish_ok A.rmTemp (join dir z) (sel.map (returned A dir)) (extractAll dir sel (opened s dir fs))
        ((extractAll_files dir sel _ _).2 (.inl (opened_mem hD)))
      rw [h4] at h'
      refine ⟨dir, fs, join dir z, names, sel, hD, hn, hf, ?_⟩
      cases h'
      rfl

/-- C131: every returned name is that of a file that is there, if the archive does not contain itself. -/
theorem C131_available (W : World) (A : Args) (s : Sys) (dir : Name) (fs : List Name) (arch : Name)
    (h : Downloaded W A s dir fs arch) (names sel : List Name) (hn : W.archive arch = .ok names)
    (hs : Dmsp.fetch W.env names A.stime A.etime A.sats = .ok sel) (hp : ∀ n ∈ sel, n.getLast? ≠ some '/' ∧ join dir n ≠ arch) :
    ∃ s' out, fetchFiles W A s = (s', .done out) ∧ ∀ p ∈ out, p ∈ s'.files := by
  obtain ⟨s', h1, h2⟩ := C131_returns W A s dir fs arch h names sel hn hs fun n hn => (hp n hn).1
  refine ⟨s', _, h1, fun p hpm => ?_⟩
  obtain ⟨n, hn, rfl⟩ := List.mem_map.1 hpm
  exact (h2 _).2 ⟨.inr ⟨n, hn, rfl⟩, fun _ => (hp n hn).2⟩

/-- C131: if a name of the archive cannot be read, the call raises what the test of the name raises, and the archive and
everything unpacked before stay in the directory. -/
theorem C131_left (W : World) (A : Args) (s : Sys) (dir : Name) (fs : List Name) (arch : Name)
    (h : Downloaded W A s dir fs arch) (names : List Name) (hn : W.archive arch = .ok names) (e : PyErr)
    (hs : Dmsp.fetch W.env names A.stime A.etime A.sats = .error e) :
    (fetchFiles W A s).2 = .raised e ∧ arch ∈ (fetchFiles W A s).1.files := by
  rw [fetchFiles_downloaded h]
  obtain ⟨sel, -, h1⟩ := (unpack_eq W A dir arch _ names ((goodSats_iff A).2 h.accepted.1) (opened_mem h) hn).2 e hs
  rw [h1]
  exact ⟨rfl, (extractAll_files dir sel _ _).2 (.inl (opened_mem h))⟩

/-! ### Examples -/

/-- A message of a good download -/
def exMsg : Name := "Link: https://z/files/d.zip Checksum is correct".toList

/-- The files that the download of the example leaves -/
def exFs : List Name := ["/d/md5sums.txt".toList, "/d/d.zip".toList]

theorem ex_downloaded (names : List Name) (s e : Option ℤ) (rm : Bool) (old : List Name) :
    Downloaded (exWorld names exFs (.ok exMsg)) (exArgs s e rm) (exSys old) "/d".toList (exFs ++ old) "/d/d.zip".toList where
  accepted := ⟨by simp [exArgs], .inl rfl, by simp [exSys]⟩
  zen := ⟨exMsg, rfl, .inl ((contains_iff _ _).1 (by decide)), "https://z/files/d.zip".toList, "d.zip".toList,
    (linkWord_iff _ _).1 (by decide), (C129_archive _ _).1 (by rw [zipPart_link]; decide), by decide⟩
  sums := by rw [List.mem_append]; exact .inl (by decide)
  arch_mem := by rw [List.mem_append]; exact .inl (by decide)
  arch_ne := by decide

/-- Two names of the documented format -/
def exNames : List Name :=
  ["dmsp-f16_ssj_bound_20101231_v1_b.csv".toList, "dmsp-f17_ssj_bound_20110101_v1_b.csv".toList]

example : ∃ s', fetchFiles (exWorld exNames exFs (.ok exMsg)) (exArgs (some 11) none true) (exSys []) =
    (s', .done ["/d/dmsp-f17_ssj_bound_20110101_v1_b.csv".toList]) ∧ "/d/d.zip".toList ∉ s'.files := by
  obtain ⟨s', h1, h2⟩ := C131_returns _ _ _ _ _ _ (ex_downloaded exNames (some 11) none true []) exNames
    ["dmsp-f17_ssj_bound_20110101_v1_b.csv".toList] rfl (by rfl) (by decide)
  exact ⟨s', by rw [h1]; rfl, fun h => ((h2 _).1 h).2 rfl rfl⟩

/-- C131 refuted: `rm_temp` does not remove the archive when a name in it is not of the documented format. -/
theorem C131_temporary_refuted : ¬ ∀ (W : World) (A : Args) (s : Sys) (dir : Name) (fs : List Name) (arch : Name),
    Downloaded W A s dir fs arch → A.rmTemp = true → arch ∉ (fetchFiles W A s).1.files := by
  intro h
  exact h _ _ _ _ _ _ (ex_downloaded ["README".toList] (some 11) none true []) rfl
    (C131_left _ _ _ _ _ _ (ex_downloaded ["README".toList] (some 11) none true []) ["README".toList] rfl .valueError rfl).2

/-- C131 refuted: files that are already there are not simply added to the output, as the documentation has it; the
archive is always downloaded, and a failing download fails the call although all files are there. -/
theorem C131_existing_refuted : ¬ ∀ (W : World) (A : Args) (s : Sys) (dir : Name) (names sel : List Name),
    Accepted W A s dir → (∀ arch, W.archive arch = .ok names) → Dmsp.fetch W.env names A.stime A.etime A.sats = .ok sel →
    (∀ n ∈ sel, join dir n ∈ s.files) → ∃ s', fetchFiles W A s = (s', .done (sel.map (join dir))) := by
  intro h
  have h0 : Accepted (exWorld exNames [] (.error .ioError)) (exArgs none none true)
      (exSys (exNames.map (join "/d".toList))) "/d".toList := ⟨by simp [exArgs], .inl rfl, by decide⟩
  obtain ⟨s', h1⟩ := h _ _ _ "/d".toList exNames exNames h0 (fun _ => rfl) rfl
    (fun n hn => List.mem_map_of_mem (f := join "/d".toList) hn)
  have h2 := (C130_captured _ _ _ _ h0 .ioError rfl).1
  rw [h1] at h2
  cases h2

/-! ## C132: download and conversion together -/

theorem removeAll_ok (ps : List Name) : ∀ s : Sys, ps.Nodup → (∀ p ∈ ps, p ∈ s.files) →
    ∃ s', removeAll ps s = (s', .ok ()) ∧ ∀ p, p ∈ s'.files ↔ p ∈ s.files ∧ p ∉ ps := by
  induction ps with
  | nil => exact fun s _ _ => ⟨s, rfl, by simp⟩
  | cons q ps ih =>
    intro s hnd hm
    rw [List.nodup_cons] at hnd
    rw [removeAll, remove_mem (hm q (by simp))]
    obtain ⟨s', h1, h2⟩ := ih { s with files := s.files.filter (· ≠ q) } hnd.2 (by
      intro p hp
      show p ∈ s.files.filter _
      rw [List.mem_filter]
      refine ⟨hm p (by simp [hp]), ?_⟩
      have : p ≠ q := fun h => hnd.1 (h ▸ hp)
      simpa using this)
    refine ⟨s', h1, fun p => ?_⟩
    rw [h2]
    show p ∈ s.files.filter _ ∧ _ ↔ _
    rw [List.mem_filter]
    simp only [ne_eq, decide_not, Bool.not_eq_eq_eq_not, Bool.not_true, decide_eq_false_iff_not, List.mem_cons, not_or]
    tauto

/-- The arguments that `fetch_format_ssj_boundary_files` hands on -/
def handed (doi : Name) (stime etime : Option ℤ) (dir : Option Name) (rm : Bool) : Args := ⟨stime, etime, dir, none, doi, rm⟩

theorem formatFiles_ok {body : List Name → Except PyErr Unit} {csv names : List Name} {s : Sys} (hne : csv ≠ [])
    (hm : ∀ p ∈ csv, p ∈ s.files) (hb : body csv = .ok ()) (hn : boundNames csv = .ok names) :
    formatFiles body csv s = ({ s with files := names ++ s.files }, .ok names) := by
  unfold formatFiles
  have hf : (csv.filter fun n => decide (n ∈ s.files)) = csv := by
    rw [List.filter_eq_self]
    intro p hp
    simpa using hm p hp
  simp only [hf, if_neg hne, hn, hb]

/-- C132: if the files are fetched (distinct regular files) and converted, the names of the boundary files are returned;
the files afterwards are those after the download with the boundary files, without the CSV files if they are to be
removed. -/
theorem C132_returns (W : World) (body : List Name → Except PyErr Unit) (doi : Name) (stime etime : Option ℤ)
    (dir : Option Name) (rm : Bool) (s s1 : Sys) (csv names : List Name)
    (h : fetchFiles W (handed doi stime etime dir rm) s = (s1, .done csv)) (hne : csv ≠ []) (hnd : csv.Nodup)
    (hm : ∀ p ∈ csv, p ∈ s1.files) (hb : body csv = .ok ()) (hn : boundNames csv = .ok names) :
    ∃ s', fetchFormat W body doi stime etime dir rm s = (s', .done names) ∧
      ∀ p, p ∈ s'.files ↔ (p ∈ names ∨ p ∈ s1.files) ∧ (rm = true → p ∉ csv) := by
  unfold fetchFormat
  unfold handed at h
  rw [h]
  simp only
  unfold afterFetch
  rw [if_neg hne, formatFiles_ok hne hm hb hn]
  cases rm with
  | false => exact ⟨_, rfl, by simp⟩
  | true =>
    simp only [if_true]
    obtain ⟨s', h1, h2⟩ := removeAll_ok csv { s1 with files := names ++ s1.files } hnd fun p hp => by simp [hm p hp]
    refine ⟨s', by rw [h1], fun p => ?_⟩
    rw [h2]
    simp

/-- C132: no file at all is a ValueError, and nothing is written. -/
theorem C132_nothing (W : World) (body : List Name → Except PyErr Unit) (doi : Name) (stime etime : Option ℤ)
    (dir : Option Name) (rm : Bool) (s s1 : Sys) (h : fetchFiles W (handed doi stime etime dir rm) s = (s1, .done [])) :
    fetchFormat W body doi stime etime dir rm s = (s1, .raised .valueError) := by
  unfold fetchFormat
  unfold handed at h
  rw [h]
  rfl

/-- C132: a conversion that fails leaves the CSV files where they are, whatever `rm_temp`, together with the boundary
files begun. -/
theorem C132_failure (W : World) (body : List Name → Except PyErr Unit) (doi : Name) (stime etime : Option ℤ)
    (dir : Option Name) (rm : Bool) (s s1 : Sys) (csv names : List Name)
    (h : fetchFiles W (handed doi stime etime dir rm) s = (s1, .done csv)) (hne : csv ≠ [])
    (hm : ∀ p ∈ csv, p ∈ s1.files) (e : PyErr) (hb : body csv = .error e) (hn : boundNames csv = .ok names) :
    fetchFormat W body doi stime etime dir rm s = ({ s1 with files := names ++ s1.files }, .raised e) := by
  unfold fetchFormat
  unfold handed at h
  rw [h]
  simp only
  unfold afterFetch formatFiles
  have hf : (csv.filter fun n => decide (n ∈ s1.files)) = csv := by
    rw [List.filter_eq_self]
    intro p hp
    simpa using hm p hp
  rw [if_neg hne]
  simp only [hf, if_neg hne, hn, hb]

/-- The example of C131 as a whole call -/
theorem ex_fetch : ∃ s1, fetchFiles (exWorld exNames exFs (.ok exMsg)) (handed "doi".toList none none (some "/d".toList) true)
    (exSys []) = (s1, .done (exNames.map (join "/d".toList))) ∧ ∀ p ∈ exNames.map (join "/d".toList), p ∈ s1.files := by
  obtain ⟨s', h1, h2⟩ := C131_returns _ _ _ _ _ _ (ex_downloaded exNames none none true []) exNames exNames rfl rfl (by decide)
  refine ⟨s', h1, fun p hp => ?_⟩
  obtain ⟨n, hn, rfl⟩ := List.mem_map.1 hp
  refine (h2 _).2 ⟨.inr ⟨n, hn, rfl⟩, fun _ => ?_⟩
  revert n
  decide

example : ∃ s', fetchFormat (exWorld exNames exFs (.ok exMsg)) (fun _ => .ok ()) "doi".toList none none (some "/d".toList) true
    (exSys []) = (s', .done ["/d/dmsp-ssj_north_20101231_20110101_v1.ocb".toList,
      "/d/dmsp-ssj_north_20101231_20110101_v1.eab".toList, "/d/dmsp-ssj_south_20101231_20110101_v1.ocb".toList,
      "/d/dmsp-ssj_south_20101231_20110101_v1.eab".toList]) := by
  obtain ⟨s1, h1, h2⟩ := ex_fetch
  obtain ⟨s', h3, -⟩ := C132_returns _ (fun _ => .ok ()) _ _ _ _ _ _ s1 _ _ h1 (by decide) (by decide) h2 rfl (by rfl)
  exact ⟨s', h3⟩

/-- C132 refuted: `rm_temp` does not remove the CSV files when the conversion fails. -/
theorem C132_temporary_refuted : ¬ ∀ (W : World) (body : List Name → Except PyErr Unit) (doi : Name)
    (stime etime : Option ℤ) (dir : Option Name) (s s1 : Sys) (csv : List Name),
    fetchFiles W (handed doi stime etime dir true) s = (s1, .done csv) →
    ∀ p ∈ csv, p ∉ (fetchFormat W body doi stime etime dir true s).1.files := by
  intro h
  obtain ⟨s1, h1, h2⟩ := ex_fetch
  have h3 := C132_failure _ (fun _ => .error .keyError) _ _ _ _ _ _ s1 _ _ h1 (by decide) h2 .keyError rfl (by rfl)
  have hm : (exNames.map (join "/d".toList)).headD [] ∈ exNames.map (join "/d".toList) := by decide
  refine h _ (fun _ => .error .keyError) _ _ _ _ _ s1 _ h1 _ hm ?_
  rw [h3]
  exact List.mem_append_right _ (h2 _ hm)

/-- C132 refuted: if all data are asked for and the archive lists a directory, the call raises an error after writing
the boundary files and the CSV files are not all removed. -/
theorem C132_directory_refuted : ¬ ∀ (W : World) (body : List Name → Except PyErr Unit) (doi : Name)
    (stime etime : Option ℤ) (dir : Option Name) (rm : Bool) (s s1 : Sys) (csv : List Name),
    fetchFiles W (handed doi stime etime dir rm) s = (s1, .done csv) → csv ≠ [] →
    (∀ l names, boundNames l = .ok names → body l = .ok ()) →
    (∃ names, boundNames (csv.filter fun n => decide (n ∈ s1.files)) = .ok names) →
    ∃ s' names, fetchFormat W body doi stime etime dir rm s = (s', .done names) := by
  intro h
  have hD := ex_downloaded ("ssj/".toList :: exNames) none none true []
  have hu := (unpack_eq (exWorld ("ssj/".toList :: exNames) exFs (.ok exMsg)) (exArgs none none true) "/d".toList "/d/d.zip".toList _ ("ssj/".toList :: exNames) rfl
    (opened_mem hD) rfl).1 _ rfl
  rw [← fetchFiles_downloaded hD] at hu
  have h1 : fetchFiles (exWorld ("ssj/".toList :: exNames) exFs (.ok exMsg))
      (handed "doi".toList none none (some "/d".toList) true) (exSys []) =
      (⟨["/d/dmsp-f17_ssj_bound_20110101_v1_b.csv".toList, "/d/dmsp-f16_ssj_bound_20101231_v1_b.csv".toList],
        ["/d/ssj".toList, "/d".toList], .console, .console⟩, .done (("ssj/".toList :: exNames).map (join "/d".toList))) := by
    exact hu
  obtain ⟨s', names, h2⟩ := h _ (fun _ => .ok ()) _ _ _ _ _ _ _ _ h1 (by decide) (fun _ _ _ => rfl) ⟨_, by rfl⟩
  unfold fetchFormat at h2
  unfold handed at h1
  rw [h1] at h2
  simp only at h2
  unfold afterFetch at h2
  rw [if_neg (by decide)] at h2
  have h3 : ∃ s2 names, formatFiles (fun _ => .ok ()) (("ssj/".toList :: exNames).map (join "/d".toList))
      ⟨["/d/dmsp-f17_ssj_bound_20110101_v1_b.csv".toList, "/d/dmsp-f16_ssj_bound_20101231_v1_b.csv".toList],
        ["/d/ssj".toList, "/d".toList], .console, .console⟩ = (s2, .ok names) ∧
      "/d/ssj/".toList ∉ s2.files := ⟨_, _, by rfl, by decide⟩
  obtain ⟨s2, names2, h4, h5⟩ := h3
  rw [h4] at h2
  have h6 : removeAll (("ssj/".toList :: exNames).map (join "/d".toList)) s2 = (s2, .error .ioError) := by
    show removeAll ("/d/ssj/".toList :: exNames.map (join "/d".toList)) s2 = _
    rw [removeAll, remove_not h5]
  simp only [if_true, h6] at h2
  cases h2

/-- C132 refuted: a failed download is not always the documented ValueError. -/
theorem C132_error_refuted : ¬ ∀ (W : World) (body : List Name → Except PyErr Unit) (doi : Name)
    (stime etime : Option ℤ) (dir : Option Name) (rm : Bool) (s : Sys) (d : Name),
    Accepted W (handed doi stime etime dir rm) s d → (∀ fs arch, ¬ Downloaded W (handed doi stime etime dir rm) s d fs arch) →
    (fetchFormat W body doi stime etime dir rm s).2 = .raised .valueError := by
  intro h
  have h0 : Accepted (exWorld [] [] (.ok [])) (handed [] none none (some "/d".toList) true) (exSys []) "/d".toList :=
    ⟨by simp [handed], .inl rfl, by decide⟩
  have h1 := h _ (fun _ => .ok ()) _ _ _ _ _ _ _ h0 (by
    intro fs arch hD
    obtain ⟨msg, h1, h2, -⟩ := hD.zen
    have : msg = [] := by
      have := congrArg Prod.snd h1
      cases this
      rfl
    subst this
    rcases h2 with h2 | h2 <;> simp at h2)
  have h2 : (fetchFormat (exWorld [] [] (.ok [])) (fun _ => .ok ()) [] none none (some "/d".toList) true (exSys [])).2 =
      .raised .ioError := by rfl
  rw [h2] at h1
  cases h1

end Ocb.Fetch
