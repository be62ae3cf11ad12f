import Verif.Props.FetchFiles

/-!
# C133: the names of the boundary files made from DMSP SSJ data
-/

set_option autoImplicit false

namespace Ocb.Fetch

open Ocb.Files Ocb.Dmsp

/-! ## Specification -/

/-- What follows `dmsp-f` in the documented name of a daily file: `II_ssj_DESCRIPTION_YYYYMMDD_VERSION_REST` -/
def csvTail (sat desc date ver rest : Name) : Name :=
  sat ++ '_' :: ("ssj".toList ++ '_' :: (desc ++ '_' :: (date ++ '_' :: (ver ++ '_' :: rest))))

/-- A daily file in a directory, with a name of the documented format -/
structure CsvFile (dir n date ver : Name) : Prop where
  form : ∃ sat desc rest, n = dir ++ '/' :: ("dmsp-f".toList ++ csvTail sat desc date ver rest) ∧
    '/' ∉ csvTail sat desc date ver rest ∧ ¬ "dmsp-f".toList <:+: csvTail sat desc date ver rest ∧
    '_' ∉ sat ∧ '_' ∉ desc ∧ '_' ∉ date ∧ '_' ∉ ver

/-- The documented name of a boundary file, without the directory -/
def boundName (hemi sdate edate ver ext : Name) : Name :=
  joined ["dmsp-ssj".toList, hemi, sdate, edate, ver] ++ '.' :: ext

/-! ## Lemmas -/

theorem splitSub_before (X : Name) : ∀ P : Name, ¬ "-f".toList <:+: P →
    ∃ t, splitSub "-f".toList 0 (P ++ ("-f".toList ++ X)) = P :: t
  | [], _ => by
    have e : [] ++ ("-f".toList ++ X) = '-' :: ('f' :: X) := rfl
    refine ⟨splitSub "-f".toList 1 ('f' :: X), ?_⟩
    rw [e]
    show (if "-f".toList.isPrefixOf ('-' :: 'f' :: X) then [] :: splitSub "-f".toList 1 ('f' :: X) else _) = _
    rw [if_pos]
    rw [List.isPrefixOf_iff_prefix]
    exact ⟨X, rfl⟩
  | c :: cs, h => by
    rw [List.infix_cons_iff, not_or] at h
    obtain ⟨t, ht⟩ := splitSub_before X cs h.2
    refine ⟨t, ?_⟩
    rw [List.cons_append, splitSub, if_neg, ht]
    intro hp
    rw [List.isPrefixOf_iff_prefix] at hp
    apply h.1
    obtain ⟨r, hr⟩ := hp
    cases cs with
    | nil =>
      exfalso
      simp at hr
    | cons d ds =>
      refine ⟨ds, ?_⟩
      simp only [List.cons_append] at hr
      have e : "-f".toList ++ r = '-' :: 'f' :: r := rfl
      rw [e] at hr
      injection hr with h1 h2
      injection h2 with h2 h3
      rw [← h1, ← h2]
      rfl

theorem no_dash_f : ∀ dir : Name, ¬ "-f".toList <:+: dir → ¬ "-f".toList <:+: dir ++ "/dmsp".toList
  | [], _ => by
    rw [← contains_iff]
    decide
  | c :: cs, h => by
    rw [List.infix_cons_iff, not_or] at h
    rw [List.cons_append, List.infix_cons_iff, not_or]
    refine ⟨?_, no_dash_f cs h.2⟩
    rintro ⟨r, hr⟩
    have e : "-f".toList ++ r = '-' :: 'f' :: r := rfl
    rw [e] at hr
    injection hr with h1 h2
    cases cs with
    | nil =>
      have e2 : [] ++ "/dmsp".toList = '/' :: "dmsp".toList := rfl
      rw [e2] at h2
      injection h2 with h3 h4
      exact absurd h3 (by decide)
    | cons d ds =>
      rw [List.cons_append] at h2
      injection h2 with h3 h4
      exact h.1 ⟨ds, by rw [← h1, ← h3]; rfl⟩

theorem common_prefix {Q a b : Name} (ha : Q <+: a) (hb : Q <+: b) : Q <+: common a b := by
  induction Q generalizing a b with
  | nil => exact List.nil_prefix
  | cons q Q ih =>
    obtain ⟨r, rfl⟩ := ha
    obtain ⟨t, rfl⟩ := hb
    rw [List.cons_append, List.cons_append, common, if_pos rfl]
    exact List.cons_prefix_cons.2 ⟨rfl, ih (List.prefix_append _ _) (List.prefix_append _ _)⟩

theorem commonPrefix_prefix {Q : Name} {l : List Name} (hne : l ≠ []) (h : ∀ n ∈ l, Q <+: n) : Q <+: commonPrefix l := by
  cases l with
  | nil => exact absurd rfl hne
  | cons n ns =>
    have gen : ∀ (ns : List Name) (a : Name), Q <+: a → (∀ n ∈ ns, Q <+: n) → Q <+: ns.foldl common a := by
      intro ns
      induction ns with
      | nil => exact fun a ha _ => ha
      | cons b bs ih => exact fun a ha hb => ih _ (common_prefix ha (hb b (by simp))) fun n hn => hb n (by simp [hn])
    exact gen ns n (h n (by simp)) fun m hm => h m (by simp [hm])

theorem splitPath_tail (d t : Name) (h : '/' ∉ t) : (splitPath (d ++ '/' :: t)).2 = t := by
  show ((d ++ '/' :: t).reverse.takeWhile _).reverse = t
  rw [List.reverse_append, List.reverse_cons, List.append_assoc, List.takeWhile_append_of_pos]
  · simp
  · intro c hc
    have : c ≠ '/' := fun h' => h (h' ▸ List.mem_reverse.1 hc)
    simpa using this

theorem sections_csv {dir n date ver : Name} (h : CsvFile dir n date ver) :
    part (sections n) 1 = .ok "ssj".toList ∧ part (sections n) 3 = .ok date ∧ part (sections n) 4 = .ok ver := by
  obtain ⟨sat, desc, rest, rfl, h1, h2, h3, h4, h5, h6⟩ := h.form
  have hs : sections (dir ++ '/' :: ("dmsp-f".toList ++ csvTail sat desc date ver rest)) =
      sat :: "ssj".toList :: desc :: date :: ver :: split rest := by
    unfold sections
    rw [splitPath_tail _ _ (by
      rw [List.mem_append, not_or]
      exact ⟨by decide, h1⟩)]
    obtain ⟨pre, -, e⟩ := splitSub_last (csvTail sat desc date ver rest) [] 0 (by simp)
    rw [List.nil_append] at e
    rw [e, splitSub_none _ _ h2, List.getLastD_eq_getLast?, List.getLast?_append]
    simp only [List.getLast?_singleton, Option.some_or, Option.getD_some]
    unfold csvTail
    rw [split_cons _ _ h3, split_cons _ _ (by decide), split_cons _ _ h4, split_cons _ _ h5, split_cons _ _ h6]
  rw [hs]
  exact ⟨rfl, rfl, rfl⟩

theorem toLower_underscore {c : Char} (h : c.toLower = '_') : c = '_' := by
  unfold Char.toLower at h
  split at h
  · rename_i hc
    have h1 := congrArg Char.val h
    simp only at h1
    exfalso
    have h2 := congrArg UInt32.toNat h1
    rw [UInt32.toNat_add] at h2
    have h3 : 65 ≤ c.val.toNat := UInt32.le_iff_toNat_le.1 hc.1
    have h4 : c.val.toNat ≤ 90 := UInt32.le_iff_toNat_le.1 hc.2
    have h5 : (32 : UInt32).toNat = 32 := rfl
    have h6 : ('_' : Char).val.toNat = 95 := rfl
    have h7 : ('a'.val - 'A'.val).toNat = 32 := rfl
    omega
  · exact h

theorem lower_no_underscore {n : Name} (h : '_' ∉ n) : '_' ∉ lower n := by
  unfold lower
  rw [List.mem_map]
  rintro ⟨c, hc, hl⟩
  exact h (toLower_underscore hl ▸ hc)

/-! ## C133 -/

/-- C133: for daily files in one directory whose path has no "-f", the four boundary files are in that directory and
have the documented names, with the date of the first file, the date of the last file and its version. -/
theorem C133_names_partial (dir : Name) (hd : ¬ "-f".toList <:+: dir) (csv : List Name) (date ver : Name → Name)
    (hne : csv ≠ []) (h : ∀ n ∈ csv, CsvFile dir n (date n) (ver n)) :
    boundNames csv = .ok
      (let name := fun h x => dir ++ '/' :: boundName h (date (csv.head hne)) (date (csv.getLast hne)) (ver (csv.getLast hne)) x
       [name "north".toList "ocb".toList, name "north".toList "eab".toList, name "south".toList "ocb".toList,
         name "south".toList "eab".toList]) := by
  have hpre : dir ++ "/dmsp".toList ++ "-f".toList <+: commonPrefix csv := by
    apply commonPrefix_prefix hne
    intro n hn
    obtain ⟨sat, desc, rest, h1, -⟩ := (h n hn).form
    rw [h1]
    refine ⟨csvTail sat desc (date n) (ver n) rest, ?_⟩
    simp
  obtain ⟨X, hX⟩ := hpre
  obtain ⟨t, ht⟩ := splitSub_before X _ (no_dash_f dir hd)
  rw [← List.append_assoc, hX] at ht
  have hh : csv.headD [] = csv.head hne := by
    cases csv with
    | nil => exact absurd rfl hne
    | cons a l => rfl
  have hl : csv.getLastD [] = csv.getLast hne := by
    rw [List.getLastD_eq_getLast?, List.getLast?_eq_some_getLast hne]
    rfl
  obtain ⟨-, s1, -⟩ := sections_csv (h _ (List.head_mem hne))
  obtain ⟨l1, l2, l3⟩ := sections_csv (h _ (List.getLast_mem hne))
  unfold boundNames
  simp only [ht, hh, hl, s1, l1, l2, l3, bind, Except.bind, pure, Except.pure, List.headD_cons]
  congr 1
  simp only [kinds, List.map_cons, List.map_nil, boundName, joined]
  simp

example : boundNames ["/d/dmsp-f16_ssj_precipitating-electrons-ions_20101231_v1.1.2_boundaries.csv".toList,
      "/d/dmsp-f18_ssj_precipitating-electrons-ions_20110101_v1.1.2_boundaries.csv".toList] = .ok
    ["/d/dmsp-ssj_north_20101231_20110101_v1.1.2.ocb".toList, "/d/dmsp-ssj_north_20101231_20110101_v1.1.2.eab".toList,
      "/d/dmsp-ssj_south_20101231_20110101_v1.1.2.ocb".toList, "/d/dmsp-ssj_south_20101231_20110101_v1.1.2.eab".toList] := by
  rfl

/-- C133: the four names are always distinct, so no boundary file overwrites another. -/
theorem C133_distinct (csv names : List Name) (h : boundNames csv = .ok names) : names.Nodup ∧ names.length = 4 := by
  unfold boundNames at h
  simp only [bind, Except.bind, pure, Except.pure] at h
  split at h
  · cases h
  split at h
  · cases h
  split at h
  · cases h
  split at h
  · cases h
  injection h with h
  subst h
  simp [kinds]

theorem boundNames_ext {csv names : List Name} (h : boundNames csv = .ok names) :
    ∀ n ∈ names, last3 n = "ocb".toList ∨ last3 n = "eab".toList := by
  have hl : ∀ (a b : Name), b.length = 3 → last3 (a ++ '.' :: b) = b := by
    intro a b hb
    unfold last3
    have e : a ++ '.' :: b = (a ++ ['.']) ++ b := by simp
    rw [e, List.length_append, hb, Nat.add_sub_cancel, List.drop_left]
  unfold boundNames at h
  simp only [bind, Except.bind, pure, Except.pure] at h
  split at h
  · cases h
  split at h
  · cases h
  split at h
  · cases h
  split at h
  · cases h
  injection h with h
  subst h
  intro n hn
  simp only [kinds, List.map_cons, List.map_nil, List.mem_cons, List.not_mem_nil, or_false] at hn
  rcases hn with rfl | rfl | rfl | rfl
  · exact .inl (hl _ "ocb".toList rfl)
  · exact .inr (hl _ "eab".toList rfl)
  · exact .inl (hl _ "ocb".toList rfl)
  · exact .inr (hl _ "eab".toList rfl)

/-- C132: a call that succeeds leaves all four boundary files and, with `rm_temp`, none of the fetched CSV files. -/
theorem C132_boundary (W : World) (body : List Name → Except PyErr Unit) (doi : Name) (stime etime : Option ℤ)
    (dir : Option Name) (s s1 : Sys) (csv names : List Name)
    (h : fetchFiles W (handed doi stime etime dir true) s = (s1, .done csv)) (hne : csv ≠ []) (hnd : csv.Nodup)
    (hm : ∀ p ∈ csv, p ∈ s1.files ∧ last3 p = "csv".toList) (hb : body csv = .ok ()) (hn : boundNames csv = .ok names) :
    ∃ s', fetchFormat W body doi stime etime dir true s = (s', .done names) ∧ (∀ n ∈ names, n ∈ s'.files) ∧
      (∀ p ∈ csv, p ∉ s'.files) ∧ ∀ p ∈ s1.files, p ∉ csv → p ∈ s'.files := by
  obtain ⟨s', h1, h2⟩ := C132_returns W body doi stime etime dir true s s1 csv names h hne hnd (fun p hp => (hm p hp).1) hb hn
  refine ⟨s', h1, fun n hnm => (h2 n).2 ⟨.inl hnm, fun _ hc => ?_⟩, fun p hp hp' => ((h2 p).1 hp').2 rfl hp,
    fun p hp hc => (h2 p).2 ⟨.inr hp, fun _ => hc⟩⟩
  have h3 := (hm n hc).2
  rcases boundNames_ext hn n hnm with h4 | h4
  · rw [h3] at h4
    exact absurd h4 (by decide)
  · rw [h3] at h4
    exact absurd h4 (by decide)

/-- C133: the names are recognised by the search for boundary files: for every pair of hemisphere and boundary the name
says instrument `dmsp-ssj` and that hemisphere, and belongs to that boundary (unless a part of it contains ".py" or
"README"). -/
theorem C133_recognised (c : Cal) (sdate edate ver : Name) (h1 : '_' ∉ sdate) (h2 : '_' ∉ edate) (h3 : '_' ∉ ver)
    (hem : ℤ) (hn : Name) (hh : (hn = "north".toList ∧ hem = 1) ∨ (hn = "south".toList ∧ hem = -1)) (ext : Name)
    (he : ext = "ocb".toList ∨ ext = "eab".toList) :
    Says c (boundName hn sdate edate ver ext) "dmsp-ssj".toList hem (c.date 2010 1 1) c.tomorrow ∧
    (¬ ".py".toList <:+: boundName hn sdate edate ver ext → ¬ "README".toList <:+: boundName hn sdate edate ver ext →
      IsBoundary ext (boundName hn sdate edate ver ext, true)) := by
  have hlen : ext.length = 3 := by rcases he with rfl | rfl <;> rfl
  have hle : lower ext = ext := by rcases he with rfl | rfl <;> rfl
  have hlh : lower hn = hn := by rcases hh with ⟨rfl, -⟩ | ⟨rfl, -⟩ <;> rfl
  have hnu : '_' ∉ hn := by rcases hh with ⟨rfl, -⟩ | ⟨rfl, -⟩ <;> decide
  constructor
  · refine ⟨hn, [lower sdate, lower edate, lower ver], ext, ?_, hlen, ?_, hh, .inl (by simp [coverage])⟩
    · have e1 : ∀ a b : Name, lower (a ++ b) = lower a ++ lower b := fun a b => by simp [lower]
      have e2 : ∀ (x : Char) (b : Name), lower (x :: b) = x.toLower :: lower b := fun a b => by simp [lower]
      have e3 : lower "dmsp-ssj".toList = "dmsp-ssj".toList := by decide
      unfold boundName
      simp only [joined, e1, e2, e3, hle, hlh]
      rfl
    · intro p hp
      simp only [List.mem_cons, List.not_mem_nil, or_false] at hp
      rcases hp with rfl | rfl | rfl | rfl | rfl
      · decide
      · exact hnu
      · exact lower_no_underscore h1
      · exact lower_no_underscore h2
      · exact lower_no_underscore h3
  · intro a b
    refine ⟨rfl, a, b, joined ["dmsp-ssj".toList, hn, sdate, edate, ver] ++ ['.'], ext, ?_, hlen, rfl⟩
    simp [boundName]

example : Says ⟨fun _ _ _ => 0, 1, fun _ => none⟩ "dmsp-ssj_south_20101231_20101231_v1.1.2.eab".toList "dmsp-ssj".toList
    (-1) 0 1 :=
  (C133_recognised ⟨fun _ _ _ => 0, 1, fun _ => none⟩ "20101231".toList "20101231".toList "v1.1.2".toList (by decide)
    (by decide) (by decide) (-1) "south".toList (.inr ⟨rfl, rfl⟩) "eab".toList (.inr rfl)).1

/-- C133 refuted: if the path of the directory contains "-f", the boundary files are put elsewhere and named otherwise. -/
theorem C133_directory_refuted : ¬ ∀ (dir : Name) (csv names : List Name), csv ≠ [] →
    (∀ n ∈ csv, ∃ date ver, CsvFile dir n date ver) → boundNames csv = .ok names → ∀ n ∈ names, dir <+: n := by
  intro h
  have h1 := h "/my-files".toList
    ["/my-files/dmsp-f16_ssj_x_20101231_v1_b.csv".toList]
    ["/my-ssj_north_20101231_20101231_v1.ocb".toList, "/my-ssj_north_20101231_20101231_v1.eab".toList,
      "/my-ssj_south_20101231_20101231_v1.ocb".toList, "/my-ssj_south_20101231_20101231_v1.eab".toList] (by simp) (by
      intro n hn
      rw [List.mem_singleton] at hn
      subst hn
      exact ⟨"20101231".toList, "v1".toList, ⟨"16".toList, "x".toList, "b.csv".toList, by decide, by decide,
        by rw [← contains_iff]; decide, by decide, by decide, by decide, by decide⟩⟩) (by rfl) _ (List.mem_cons_self ..)
  rw [← List.isPrefixOf_iff_prefix] at h1
  revert h1
  decide

/-- C133 refuted: the dates in the names need not span the data; the archive lists the files by satellite, and a later
satellite may have an earlier first day. -/
theorem C133_span_refuted : ¬ ∀ (csv : List Name) (date ver : Name → Name) (read : Name → ℤ), csv ≠ [] →
    (∀ n ∈ csv, CsvFile "/d".toList n (date n) (ver n)) →
    ∃ names s e v, boundNames csv = .ok names ∧ '_' ∉ s ∧ '_' ∉ e ∧ '_' ∉ v ∧
      "/d/".toList ++ boundName "north".toList s e v "ocb".toList ∈ names ∧
      ∀ n ∈ csv, read s ≤ read (date n) ∧ read (date n) ≤ read e := by
  intro h
  let f16 : Name := "/d/dmsp-f16_ssj_x_20110101_v1_b.csv".toList
  let f17 : Name := "/d/dmsp-f17_ssj_x_20101231_v1_b.csv".toList
  obtain ⟨names, s, e, v, h1, h2, h3, h4, h5, h6⟩ := h [f16, f17]
    (fun n => if n = f16 then "20110101".toList else "20101231".toList) (fun _ => "v1".toList)
    (fun n => if n = "20110101".toList then 1 else 0) (by simp) (by
      intro n hn
      simp only [List.mem_cons, List.not_mem_nil, or_false] at hn
      rcases hn with rfl | rfl
      · exact ⟨"16".toList, "x".toList, "b.csv".toList, by decide, by decide, by rw [← contains_iff]; decide, by decide,
          by decide, by decide, by decide⟩
      · exact ⟨"17".toList, "x".toList, "b.csv".toList, by decide, by decide, by rw [← contains_iff]; decide, by decide,
          by decide, by decide, by decide⟩)
  have hb : boundNames [f16, f17] = .ok
      ["/d/dmsp-ssj_north_20110101_20101231_v1.ocb".toList, "/d/dmsp-ssj_north_20110101_20101231_v1.eab".toList,
        "/d/dmsp-ssj_south_20110101_20101231_v1.ocb".toList, "/d/dmsp-ssj_south_20110101_20101231_v1.eab".toList] := rfl
  rw [hb] at h1
  injection h1 with h1
  subst h1
  have hs : split (cut4 ("/d/".toList ++ boundName "north".toList s e v "ocb".toList)) =
      ["/d/dmsp-ssj".toList, "north".toList, s, e, v] := by
    have e1 : "/d/".toList ++ boundName "north".toList s e v "ocb".toList =
        joined ["/d/dmsp-ssj".toList, "north".toList, s, e, v] ++ ".ocb".toList := by
      simp [boundName, joined]
    rw [e1, cut4_append _ _ (by rfl), split_joined _ (by simp)]
    intro p hp
    simp only [List.mem_cons, List.not_mem_nil, or_false] at hp
    rcases hp with rfl | rfl | rfl | rfl | rfl
    · decide
    · decide
    · exact h2
    · exact h3
    · exact h4
  have hsd : s = "20110101".toList := by
    have hall : ∀ n ∈ ["/d/dmsp-ssj_north_20110101_20101231_v1.ocb".toList,
        "/d/dmsp-ssj_north_20110101_20101231_v1.eab".toList, "/d/dmsp-ssj_south_20110101_20101231_v1.ocb".toList,
        "/d/dmsp-ssj_south_20110101_20101231_v1.eab".toList], (split (cut4 n))[2]? = some "20110101".toList := by decide
    have := hall _ h5
    rw [hs] at this
    simpa using this
  have h7 := (h6 f17 (by simp)).1
  rw [hsd] at h7
  exact absurd h7 (by decide)

end Ocb.Fetch
