import Mathlib.Logic.Function.Iterate
import Verif.Model.Fetch

/-!
# C129: the archive found in the message of the download

The words between the slashes of the link decide: the archive is the last of them that contains ".zip" after its first
letter.  If there is none the loop of the code never ends, although the documentation promises an IOError.
-/

set_option autoImplicit false

namespace Ocb.Fetch

open Ocb.Files Ocb.Dmsp

/-! ## Specification -/

/-- A name that contains ".zip", but not at its beginning -/
def ArchiveName (n : Name) : Prop := ".zip".toList <:+: n ∧ ¬ ".zip".toList <+: n

/-- The last part of a link that is the name of an archive -/
def LastArchive (link z : Name) : Prop :=
  ∃ l r, link.splitOn '/' = l ++ z :: r ∧ ArchiveName z ∧ ∀ y ∈ r, ¬ ArchiveName y

/-! ## Lemmas -/

theorem findAux_pos (sub : Name) : ∀ (s : Name) (i : ℕ), sub ≠ [] →
    ((sub <:+: s → (i : ℤ) ≤ Pysat.findAux sub s i ∧ (Pysat.findAux sub s i = i ↔ sub <+: s)) ∧
      (¬ sub <:+: s → Pysat.findAux sub s i = -1))
  | [], i, h => by
    constructor
    · intro h'
      simp at h'
      exact absurd h' h
    · intro _
      rw [Pysat.findAux, if_neg]
      simpa using h
  | c :: cs, i, h => by
    obtain ⟨ih1, ih2⟩ := findAux_pos sub cs (i + 1) h
    rw [Pysat.findAux]
    by_cases hp : sub.isPrefixOf (c :: cs) = true
    · rw [if_pos hp]
      have hp' : sub <+: c :: cs := List.isPrefixOf_iff_prefix.1 hp
      exact ⟨fun _ => ⟨le_refl _, by simp [hp']⟩, fun hn => absurd hp'.isInfix hn⟩
    · rw [if_neg hp]
      have hp' : ¬ sub <+: c :: cs := fun h => hp (List.isPrefixOf_iff_prefix.2 h)
      rw [List.infix_cons_iff]
      constructor
      · rintro (h1 | h1)
        · exact absurd h1 hp'
        · obtain ⟨h2, -⟩ := ih1 h1
          push_cast at h2
          refine ⟨by omega, ?_⟩
          constructor
          · intro h3
            omega
          · intro h3
            exact absurd h3 hp'
      · intro hn
        exact ih2 fun h1 => hn (.inr h1)

theorem isZip_iff (n : Name) : isZip n = true ↔ ArchiveName n := by
  unfold isZip ArchiveName Pysat.find
  rw [decide_eq_true_eq]
  obtain ⟨h1, h2⟩ := findAux_pos ".zip".toList n 0 (by decide)
  by_cases hi : ".zip".toList <:+: n
  · obtain ⟨h3, h4⟩ := h1 hi
    simp only [hi, true_and, ← h4]
    push_cast at *
    omega
  · rw [h2 hi]
    exact ⟨fun h => absurd h (by decide), fun h => absurd h.1 hi⟩

theorem isZip_nil : isZip [] = false := by decide

theorem dropWhile_slash (l : Name) : l.dropWhile (fun c => c != '/') = [] ∨ ∃ m, l.dropWhile (fun c => c != '/') = '/' :: m := by
  induction l with
  | nil => exact .inl rfl
  | cons c cs ih =>
    rw [List.dropWhile_cons]
    split
    · exact ih
    · rename_i h
      have : c = '/' := by simpa using h
      exact .inr ⟨cs, by rw [this]⟩

theorem splitLast_spec (p : Name) : (splitLast p).1 ++ (splitLast p).2 = p ∧ '/' ∉ (splitLast p).2 ∧
    ((splitLast p).1 = [] ∨ ∃ g, (splitLast p).1 = g ++ ['/']) := by
  refine ⟨?_, ?_, ?_⟩
  · unfold splitLast
    rw [← List.reverse_append, List.takeWhile_append_dropWhile, List.reverse_reverse]
  · unfold splitLast
    rw [List.mem_reverse]
    intro h
    have := List.all_eq_true.1 (List.all_takeWhile (p := fun c => c != '/') (l := p.reverse)) _ h
    simp at this
  · unfold splitLast
    rcases dropWhile_slash p.reverse with h | ⟨m, h⟩
    · exact .inl (by rw [h]; rfl)
    · exact .inr ⟨m.reverse, by rw [h]; simp⟩

/-- The parts between slashes that are not empty -/
def comps (p : Name) : List Name := (p.splitOn '/').filter (fun n => decide (n ≠ []))

theorem comps_slash (a b : Name) : comps (a ++ '/' :: b) = comps a ++ comps b := by
  unfold comps
  rw [List.splitOn_append_cons_self, List.filter_append]

theorem comps_nil : comps [] = [] := by decide

theorem comps_single {t : Name} (h : '/' ∉ t) : comps t = if t = [] then [] else [t] := by
  unfold comps
  rw [List.splitOn_eq_singleton h]
  by_cases ht : t = [] <;> simp [ht]

theorem comps_rstrip (l : Name) : comps (l.dropWhile (fun c => c == '/')).reverse = comps l.reverse := by
  induction l with
  | nil => rfl
  | cons c cs ih =>
    rw [List.dropWhile_cons]
    split
    · rename_i h
      have hc : c = '/' := by simpa using h
      rw [ih, hc, List.reverse_cons, comps_slash, comps_nil, List.append_nil]
    · rfl

theorem comps_strip (h : Name) : comps (strip h) = comps h := by
  unfold strip
  split
  · rfl
  · rw [comps_rstrip, List.reverse_reverse]

theorem comps_splitPath (p : Name) :
    comps p = comps (splitPath p).1 ++ if (splitPath p).2 = [] then [] else [(splitPath p).2] := by
  obtain ⟨h1, h2, h3⟩ := splitLast_spec p
  show comps p = comps (strip (splitLast p).1) ++ if (splitLast p).2 = [] then [] else [(splitLast p).2]
  rw [comps_strip, ← comps_single h2]
  rcases h3 with h3 | ⟨g, h3⟩
  · rw [h3] at h1 ⊢
    rw [comps_nil]
    simp only [List.nil_append] at h1 ⊢
    rw [h1]
  · rw [h3] at h1 ⊢
    rw [comps_slash, comps_nil, List.append_nil, ← comps_slash]
    rw [List.append_assoc] at h1
    exact congrArg comps h1.symm

theorem comps_all {l : Name} (h : l.all (fun c => c == '/') = true) : comps l = [] := by
  induction l with
  | nil => exact comps_nil
  | cons c cs ih =>
    simp only [List.all_cons, Bool.and_eq_true] at h
    have hc : c = '/' := by simpa using h.1
    rw [hc, ← List.nil_append ('/' :: cs), comps_slash, comps_nil, ih h.2]
    rfl

theorem strip_prefix (h : Name) : strip h <+: h := by
  unfold strip
  split
  · exact List.prefix_rfl
  · conv_rhs => rw [← List.reverse_reverse h]
    exact List.reverse_prefix.2 (List.dropWhile_suffix _)

/-- A path that does not become shorter has only slashes, and is its own first part. -/
theorem splitPath_stuck {p : Name} (h : ¬ (splitPath p).1.length < p.length) : splitPath p = (p, []) ∧ comps p = [] := by
  obtain ⟨h1, h2, h3⟩ := splitLast_spec p
  have hp := strip_prefix (splitLast p).1
  have hl := hp.length_le
  have h4 : (splitPath p).1 = strip (splitLast p).1 := rfl
  rw [h4] at h
  have h5 : (splitLast p).1.length + (splitLast p).2.length = p.length := by rw [← List.length_append, h1]
  have h6 : (splitLast p).2 = [] := List.length_eq_zero_iff.1 (by omega)
  have h7 : strip (splitLast p).1 = (splitLast p).1 := hp.eq_of_length (by omega)
  rw [h6, List.append_nil] at h1
  have hstr : strip p = p := by rw [h1] at h7; exact h7
  refine ⟨?_, ?_⟩
  · unfold splitPath
    rw [h7, h1, h6]
  · by_cases ha : p.all (fun c => c == '/') = true
    · exact comps_all ha
    · exfalso
      unfold strip at hstr
      rw [if_neg ha] at hstr
      rcases h3 with h3 | ⟨g, h3⟩
      · rw [h1] at h3
        rw [h3] at ha
        simp at ha
      · rw [h1] at h3
        rw [h3] at hstr
        have := congrArg List.length hstr
        simp only [List.reverse_append, List.reverse_cons, List.reverse_nil, List.nil_append, List.cons_append,
          List.dropWhile_cons, beq_self_eq_true, if_true, List.length_reverse, List.length_append, List.length_cons,
          List.length_nil] at this
        have hle := (List.dropWhile_suffix (fun c => c == '/') (l := g.reverse)).length_le
        rw [List.length_reverse] at hle
        omega

theorem zipPart_find (p : Name × Name) : zipPart p = (p.2 :: (comps p.1).reverse).find? isZip := by
  fun_induction zipPart p with
  | case1 p h => rw [List.find?_cons_of_pos h]
  | case2 p h hlt ih =>
    rw [ih, List.find?_cons_of_neg h, comps_splitPath p.1]
    by_cases ht : (splitPath p.1).2 = []
    · rw [if_pos ht, List.append_nil, ht, List.find?_cons_of_neg (by simp [isZip_nil])]
    · rw [if_neg ht, List.reverse_append]
      rfl
  | case3 p h hlt =>
    rw [(splitPath_stuck hlt).2, List.find?_cons_of_neg h]
    rfl

theorem zipPart_link (link : Name) : zipPart (splitPath link) = (link.splitOn '/').reverse.find? isZip := by
  have h : (comps link).reverse.find? isZip = (link.splitOn '/').reverse.find? isZip := by
    unfold comps
    rw [← List.filter_reverse, List.find?_filter]
    congr 1
    funext n
    by_cases hn : n = []
    · simp [hn, isZip_nil]
    · simp [hn]
  rw [zipPart_find, ← h, comps_splitPath link]
  by_cases ht : (splitPath link).2 = []
  · rw [if_pos ht, List.append_nil, ht, List.find?_cons_of_neg (by simp [isZip_nil])]
  · rw [if_neg ht, List.reverse_append]
    rfl

/-! ## C129 -/

/-- C129: the archive is the last part of the link that contains ".zip" after its first letter. -/
theorem C129_archive (link z : Name) : zipPart (splitPath link) = some z ↔ LastArchive link z := by
  rw [zipPart_link, List.find?_eq_some_iff_append]
  unfold LastArchive
  constructor
  · rintro ⟨hz, as, bs, h1, h2⟩
    refine ⟨bs.reverse, as.reverse, ?_, (isZip_iff z).1 hz, ?_⟩
    · have := congrArg List.reverse h1
      rw [List.reverse_reverse] at this
      rw [this]
      simp
    · intro y hy
      have := h2 y (List.mem_reverse.1 hy)
      rw [← isZip_iff]
      simpa using this
  · rintro ⟨l, r, h1, hz, h2⟩
    refine ⟨(isZip_iff z).2 hz, r.reverse, l.reverse, ?_, ?_⟩
    · rw [h1]
      simp
    · intro y hy
      have := h2 y (List.mem_reverse.1 hy)
      rw [← isZip_iff] at this
      simpa using this

/-- One turn of the loop in the code: `zip_name = os.path.split(zip_name[0])` -/
def turn (p : Name × Name) : Name × Name := splitPath p.1

/-- C129, the model of the loop: it gives the name found by the first turn that ends the loop, and no name exactly when
no turn ends it. -/
theorem C129_loop (p : Name × Name) :
    (∀ z, zipPart p = some z ↔ ∃ n, (∀ m < n, ¬ ArchiveName (turn^[m] p).2) ∧ ArchiveName (turn^[n] p).2 ∧
      z = (turn^[n] p).2) ∧
    (zipPart p = none ↔ ∀ n, ¬ ArchiveName (turn^[n] p).2) := by
  have key : (∃ n, (∀ m < n, ¬ ArchiveName (turn^[m] p).2) ∧ ArchiveName (turn^[n] p).2 ∧
      zipPart p = some (turn^[n] p).2) ∨ (zipPart p = none ∧ ∀ n, ¬ ArchiveName (turn^[n] p).2) := by
    fun_induction zipPart p with
    | case1 p h => exact .inl ⟨0, by simp, (isZip_iff _).1 h, rfl⟩
    | case2 p h hlt ih =>
      rcases ih with ⟨n, h1, h2, h3⟩ | ⟨h1, h2⟩
      · refine .inl ⟨n + 1, ?_, ?_, ?_⟩
        · intro m hm
          cases m with
          | zero => rw [← isZip_iff]; exact h
          | succ m => rw [Function.iterate_succ_apply]; exact h1 m (by omega)
        · rw [Function.iterate_succ_apply]; exact h2
        · rw [Function.iterate_succ_apply]; exact h3
      · refine .inr ⟨h1, fun n => ?_⟩
        cases n with
        | zero => rw [← isZip_iff]; exact h
        | succ n => rw [Function.iterate_succ_apply]; exact h2 n
    | case3 p h hlt =>
      refine .inr ⟨rfl, fun n => ?_⟩
      have hs := (splitPath_stuck hlt).1
      have ht : ∀ n, turn^[n + 1] p = (p.1, []) := by
        intro n
        induction n with
        | zero => exact hs
        | succ n ih => rw [Function.iterate_succ_apply', ih]; exact hs
      cases n with
      | zero => rw [← isZip_iff]; exact h
      | succ n => rw [ht n, ← isZip_iff, isZip_nil]; simp
  constructor
  · intro z
    rcases key with ⟨n, h1, h2, h3⟩ | ⟨h1, h2⟩
    · rw [h3]
      constructor
      · intro h
        exact ⟨n, h1, h2, (Option.some.inj h).symm⟩
      · rintro ⟨m, g1, g2, rfl⟩
        have : m = n := by
          rcases Nat.lt_trichotomy m n with h | h | h
          · exact absurd g2 (h1 m h)
          · exact h
          · exact absurd h2 (g1 n h)
        rw [this]
    · rw [h1]
      constructor
      · intro h
        simp at h
      · rintro ⟨n, -, h, -⟩
        exact absurd h (h2 n)
  · rcases key with ⟨n, h1, h2, h3⟩ | ⟨h1, h2⟩
    · rw [h3]
      constructor
      · intro h
        simp at h
      · intro h
        exact absurd h2 (h n)
    · exact ⟨fun _ => h2, fun _ => h1⟩

example : LastArchive "https://zenodo.org/api/records/3373812/files/dmsp.zip/content".toList "dmsp.zip".toList :=
  (C129_archive _ _).1 (by rw [zipPart_link]; decide)

/-- C129: when no part of the link is the name of an archive, the call never ends. -/
theorem C129_endless (W : World) (A : Args) (s : Sys) (dir : Name) (fs : List Name) (msg link : Name)
    (h1 : goodSats A = true) (h2 : outDir W A = .ok dir) (h3 : dir ∈ s.dirs) (h4 : W.zen s.files A.doi dir = (fs, .ok msg))
    (h5 : goodMsg msg = true) (h6 : sumsFile dir ∈ fs) (h7 : linkWord (Smag.words msg) = some link)
    (h8 : ∀ n ∈ link.splitOn '/', ¬ ArchiveName n) : (fetchFiles W A s).2 = .forever := by
  have hz : zipPart (splitPath link) = none := by
    rw [zipPart_link, List.find?_eq_none]
    intro n hn
    rw [isZip_iff]
    exact h8 n (List.mem_reverse.1 hn)
  unfold fetchFiles
  rw [if_pos h1]
  simp only [h2, if_pos h3]
  unfold download
  simp only [h4]
  unfold afterZen
  rw [if_pos h5]
  unfold remove
  simp only [if_pos h6, h7, hz]

/-! ## An example -/

/-- A world with one archive; the conversions know the texts of the example. -/
def exWorld (names : List Name) (fs : List Name) (res : Except PyErr Name) : World where
  env := { int := fun n => if n = "16".toList then some 16 else if n = "17".toList then some 17 else none
           date := fun n => if n = "20101231".toList then some 10 else if n = "20110101".toList then some 11 else none
           y1900 := 0, now := 100 }
  home := .ok "/b".toList
  zen := fun old _ _ => (fs ++ old, res)
  archive := fun _ => .ok names

/-- Arguments -/
def exArgs (s e : Option ℤ) (rm : Bool) : Args := ⟨s, e, some "/d".toList, none, "doi".toList, rm⟩

/-- A state with the console as output -/
def exSys (files : List Name) : Sys := ⟨files, ["/d".toList], .console, .console⟩

/-- C129 refuted: `fetch_ssj_boundary_files` does not raise IOError when it cannot identify the archive, it runs for
ever; here the link ends with a file that is no zip archive. -/
theorem C129_identify_refuted : ¬ ∀ (W : World) (A : Args) (s : Sys) (dir : Name) (fs : List Name) (msg link : Name),
    goodSats A = true → outDir W A = .ok dir → dir ∈ s.dirs → W.zen s.files A.doi dir = (fs, .ok msg) →
    linkWord (Smag.words msg) = some link → (∀ z, ¬ LastArchive link z) → (fetchFiles W A s).2 = .raised .ioError := by
  intro h
  have hno : ∀ n ∈ ("http://z/d.tar".toList).splitOn '/', ¬ ArchiveName n := by
    intro n hn
    rw [← isZip_iff]
    revert n
    decide
  have h1 := h (exWorld [] ["/d/md5sums.txt".toList] (.ok "Link: http://z/d.tar Checksum is correct".toList))
    (exArgs none none true) (exSys []) "/d".toList ["/d/md5sums.txt".toList] _ "http://z/d.tar".toList (by decide) rfl
    (by decide) rfl (by decide) (by
      rintro z ⟨l, r, h1, h2, -⟩
      exact hno z (by rw [h1]; simp) h2)
  rw [C129_endless _ _ _ "/d".toList ["/d/md5sums.txt".toList] _ "http://z/d.tar".toList (by decide) rfl (by decide) rfl
    (by decide) (by decide) (by decide) hno] at h1
  simp at h1

end Ocb.Fetch
