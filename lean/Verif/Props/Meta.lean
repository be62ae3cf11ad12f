import Verif.Model.Meta
import Verif.Props.PysatRows
import Verif.Props.PysatPlan

/-!
# C115, C116, C117: the metadata of the columns added to a pysat instrument
-/

set_option autoImplicit false

namespace Ocb.Meta

open Ocb.Files (Name)
open Ocb.Text (upper)
open Ocb.Ascii (before)
open Ocb.Pysat

/-! ## Specification -/

/-- What a user reads as the name of the boundary. -/
def shortName : Kind → Name
  | .ocb => "OCB".toList
  | .eab => "EAB".toList
  | .dual => "DUALB".toList

/-- The name of the boundary in full. -/
def longName : Kind → Name
  | .ocb => "Open Closed field-line Boundary".toList
  | .eab => "Equatorward Auroral Boundary".toList
  | .dual => "Dual Boundary".toList

/-- A name without a part `ocb`, `eab` or `dualb`, and without a part that begins with the name of the boundary. -/
def Plain (k : Kind) (e : Name) : Prop :=
  (∀ s ∈ e.splitOn '_', s ≠ "ocb".toList ∧ s ≠ "eab".toList ∧ s ≠ "dualb".toList) ∧ ¬ ('_' :: bname k) <:+: e

/-- Underscores become blanks. -/
def blanks (e : Name) : Name := e.map fun c => if c = '_' then ' ' else c

/-- The first component given for a vector. -/
def FirstComp (entries : List (Name × Arg)) (t : Name) : Prop :=
  ∃ pre c post, entries = pre ++ (c, .text t) :: post ∧
    (c = "vect_n".toList ∨ c = "vect_e".toList ∨ c = "vect_z".toList) ∧
    ∀ x ∈ pre, x.1 ≠ "vect_n".toList ∧ x.1 ≠ "vect_e".toList ∧ x.1 ≠ "vect_z".toList

/-! ## Lemmas on texts -/

theorem before_cons_ne {sep : Name} {c : Char} {cs : Name} (h : ¬ sep <+: c :: cs) :
    before sep (c :: cs) = c :: before sep cs := by
  rw [before, if_neg]
  rwa [List.isPrefixOf_iff_prefix]

theorem before_cut {b : Name} (hb : '_' ∉ b) {e : Name} (he : ¬ ('_' :: b) <:+: e) (t : Name) :
    before ('_' :: b) (e ++ '_' :: (b ++ t)) = e := by
  induction e with
  | nil =>
    rw [List.nil_append, before, if_pos]
    rw [List.isPrefixOf_iff_prefix]
    exact ⟨t, by simp⟩
  | cons c e ih =>
    rw [List.cons_append, before_cons_ne, ih]
    · exact fun h => he (h.trans (List.suffix_cons c e).isInfix)
    · intro h
      have h2 : (c :: e) <+: c :: (e ++ '_' :: (b ++ t)) := ⟨'_' :: (b ++ t), by simp⟩
      rcases List.prefix_or_prefix_of_prefix h h2 with h3 | h3
      · exact he h3.isInfix
      · obtain ⟨x, hx⟩ := h3
        rw [← hx, ← List.cons_append, List.prefix_append_right_inj] at h
        cases x with
        | nil => exact he (by rw [← hx]; simp)
        | cons y x =>
          rw [List.cons_prefix_cons] at h
          rw [List.cons_append, List.cons.injEq] at hx
          refine hb ?_
          rw [← hx.2]
          simp [h.1]

theorem before_self {sep o : Name} (h : ¬ sep <:+: o) : before sep o = o := by
  induction o with
  | nil => rfl
  | cons c o ih =>
    rw [before_cons_ne fun h' => h h'.isInfix, ih]
    exact fun h' => h (h'.trans (List.suffix_cons c o).isInfix)

theorem bname_free (k : Kind) : '_' ∉ bname k := by cases k <;> decide

theorem upper_bname (k : Kind) : upper (bname k) = shortName k := by cases k <;> decide

theorem descOf_bname (k : Kind) : descOf (bname k) = some (longName k) := by cases k <;> decide

theorem descOf_none {s : Name} (h : s ≠ "ocb".toList ∧ s ≠ "eab".toList ∧ s ≠ "dualb".toList) : descOf s = none := by
  rw [descOf, if_neg h.1, if_neg h.2.1, if_neg h.2.2]

theorem splitOn_cut (e t : Name) : (e ++ '_' :: t).splitOn '_' = e.splitOn '_' ++ t.splitOn '_' := by
  simp only [List.splitOn]
  exact List.splitOnP_append_cons e t (by simp)

theorem split_bname (k : Kind) : (bname k).splitOn '_' = [bname k] := by cases k <;> decide

theorem boundOf_cut {k : Kind} {e : Name} (he : Plain k e) (t : Name) (ht : t = [] ∨ ∃ t', t = '_' :: t') :
    boundOf (e ++ '_' :: (bname k ++ t)) = bname k := by
  have h1 : (e.splitOn '_').find? (fun s => (descOf s).isSome) = none := by
    rw [List.find?_eq_none]
    intro s hs
    rw [descOf_none (he.1 s hs)]
    simp
  have h2 : ∃ l, (bname k ++ t).splitOn '_' = bname k :: l := by
    rcases ht with rfl | ⟨t', rfl⟩
    · exact ⟨[], by rw [List.append_nil, split_bname]⟩
    · exact ⟨t'.splitOn '_', by rw [splitOn_cut, split_bname]; rfl⟩
  obtain ⟨l, h2⟩ := h2
  rw [boundOf, splitOn_cut, List.find?_append, h1, h2, List.find?_cons_of_pos (by rw [descOf_bname]; rfl)]
  rfl

theorem replace_blank (s : Name) : replace ['_'] [' '] s = blanks s := by
  have h : ∀ (s : Name) (n : ℕ), s.length ≤ n → replaceAux n ['_'] [' '] s = blanks s := by
    intro s
    induction s with
    | nil => intro n _; cases n <;> rfl
    | cons c s ih =>
      intro n hn
      cases n with
      | zero => simp at hn
      | succ n =>
        have hn' : s.length ≤ n := by simpa using hn
        rw [replaceAux, blanks, List.map_cons]
        by_cases hc : c = '_'
        · subst hc
          rw [if_pos (by rw [List.isPrefixOf_iff_prefix]; exact ⟨s, rfl⟩), if_pos rfl]
          have : List.drop (['_'] : Name).length ('_' :: s) = s := rfl
          rw [this, ih n hn']
          rfl
        · rw [if_neg, if_neg hc, ih n hn']
          · rfl
          · rw [List.isPrefixOf_iff_prefix, List.cons_prefix_cons]
            exact fun h => hc h.1.symm
  exact h s s.length le_rfl

theorem newName_cut {k : Kind} {e : Name} (he : Plain k e) (t : Name) (ht : t = [] ∨ ∃ t', t = '_' :: t') :
    newName (e ++ '_' :: (bname k ++ t)) = shortName k ++ ' ' :: blanks e := by
  rw [newName]
  rw [boundOf_cut he t ht, if_neg (by cases k <;> decide), before_cut (bname_free k) he.2, replace_blank, upper_bname]
  simp only [blanks, List.map_append]
  cases k <;> rfl

/-! ## Lemmas on the loop -/

section

variable {dflt : Info} {user : ℕ → Name} {b : Name} {s : Source} {vects : List (Name × List (Name × Arg))}

theorem addMeta_other {m : Meta} {o src : Name} {ow : Bool} {notes : Name} {v : Bool} {k : Name} (h : k ≠ o) :
    addMeta dflt m o src ow notes v k = m k := by
  rw [addMeta]
  split_ifs
  · rfl
  · rw [setMeta, if_neg h]

theorem addMeta_old {m : Meta} {o src notes : Name} {v : Bool} (h : (m o).isSome = true) :
    addMeta dflt m o src false notes v = m := by
  rw [addMeta, if_pos (by simp [h])]

theorem addMeta_new {m : Meta} {o src notes : Name} {v : Bool} (h : m o = none) :
    addMeta dflt m o src false notes v o = some (newInfo dflt (m src) o notes v) := by
  rw [addMeta, if_neg (by simp [h]), setMeta, if_pos rfl, h]
  rfl

theorem newInfo_fill (base : Info) (src : Option Info) (o notes : Name) (v : Bool) :
    (newInfo base src o notes v).fillVal = .nan ∧ (newInfo base src o notes v).notes = notes := by
  cases src with
  | none => exact ⟨rfl, rfl⟩
  | some s => cases v <;> exact ⟨rfl, rfl⟩

/-- The outcome of one column. -/
theorem metaOne_cases {m m' : Meta} {o : Name} (h : metaOne dflt user b s vects m o = .ok m') :
    ∃ src notes v, m' = addMeta dflt m o src false notes v ∧ notesOf s <+: notes := by
  rw [metaOne] at h
  split at h
  · rw [Except.ok.injEq] at h
    exact ⟨_, _, _, h.symm, List.prefix_refl _⟩
  · simp only [bind, Except.bind, pure, Except.pure] at h
    split at h
    · simp at h
    · split at h
      · simp at h
      · rw [Except.ok.injEq] at h
        exact ⟨_, _, _, h.symm, by rw [List.append_assoc]; exact List.prefix_append _ _⟩

theorem metaAll_frame {os : List Name} {m m' : Meta} (h : metaAll dflt user b s vects os m = .ok m') (k : Name)
    (hk : k ∉ os ∨ (m k).isSome = true) : m' k = m k := by
  induction os generalizing m with
  | nil =>
    rw [metaAll, Except.ok.injEq] at h
    rw [h]
  | cons o os ih =>
    rw [metaAll] at h
    simp only [bind, Except.bind] at h
    split at h
    · simp at h
    · rename_i m1 h1
      obtain ⟨src, notes, v, rfl, -⟩ := metaOne_cases h1
      by_cases ho : k = o
      · subst ho
        have hs := hk.resolve_left (by simp)
        rw [addMeta_old hs] at h
        exact ih h (.inr hs)
      · rw [ih h, addMeta_other ho]
        rw [addMeta_other ho]
        exact hk.imp (fun h => fun h' => h (List.mem_cons_of_mem _ h')) id

/-- The moment at which a column without metadata is described. -/
theorem metaAll_moment {os : List Name} {m m' : Meta} (h : metaAll dflt user b s vects os m = .ok m') {k : Name}
    (hk : k ∈ os) (hm : m k = none) :
    ∃ m1 m2, metaOne dflt user b s vects m1 k = .ok m2 ∧ m1 k = none ∧ m' k = m2 k ∧
      ∀ x, x ∉ os ∨ (m x).isSome = true → m1 x = m x := by
  induction os generalizing m with
  | nil => simp at hk
  | cons o os ih =>
    rw [metaAll] at h
    simp only [bind, Except.bind] at h
    split at h
    · simp at h
    · rename_i m1 h1
      by_cases ho : k = o
      · subst ho
        refine ⟨m, m1, h1, hm, ?_, fun x _ => rfl⟩
        obtain ⟨src, notes, v, rfl, -⟩ := metaOne_cases h1
        exact metaAll_frame h k (.inr (by rw [addMeta_new hm]; rfl))
      · obtain ⟨src, notes, v, rfl, -⟩ := metaOne_cases h1
        obtain ⟨n1, n2, a1, a2, a3, a4⟩ := ih h ((List.mem_cons.1 hk).resolve_left ho) (by rw [addMeta_other ho, hm])
        refine ⟨n1, n2, a1, a2, a3, fun x hx => ?_⟩
        by_cases hxo : x = o
        · subst hxo
          have hs := hx.resolve_left (by simp)
          rw [addMeta_old hs] at a4
          exact a4 x (.inr hs)
        · rw [a4 x, addMeta_other hxo]
          rw [addMeta_other hxo]
          exact hx.imp (fun h => fun h' => h (List.mem_cons_of_mem _ h')) id

theorem metaAll_ok {os : List Name} (hv : ∀ v ∈ vects, (∃ n, scaleName user v.2 = .ok n) ∧ ∃ n, firstComp v.2 = .ok n)
    (m : Meta) : ∃ m', metaAll dflt user b s vects os m = .ok m' := by
  induction os generalizing m with
  | nil => exact ⟨m, rfl⟩
  | cons o os ih =>
    have h1 : ∃ m1, metaOne dflt user b s vects m o = .ok m1 := by
      rw [metaOne]
      cases hf : vects.find? (fun v => v.1 == before ('_' :: b) o) with
      | none => exact ⟨_, rfl⟩
      | some v =>
        obtain ⟨⟨n1, h1⟩, n2, h2⟩ := hv v (List.mem_of_find?_eq_some hf)
        simp only [Option.map_some, bind, Except.bind, h1, h2]
        exact ⟨_, rfl⟩
    obtain ⟨m1, h1⟩ := h1
    obtain ⟨m', h2⟩ := ih m1
    exact ⟨m', by rw [metaAll]; simp only [bind, Except.bind, h1]; exact h2⟩

end

theorem scaled_made (k : Kind) (n : Names) (p : Plan) (e : Name)
    (he : e ∈ [n.mlat, n.mlt, "r_corr".toList] ++ p.evars ++ p.curls) (hs : e ∉ p.vects.map Prod.fst) :
    under e (bname k) ∈ outKeys (bname k) n p := by
  rw [outKeys, List.mem_flatMap]
  refine ⟨under e (bname k), ?_, ?_⟩
  · simp only [ocbNames, List.mem_append, foldl_addNew]
    simp only [List.mem_append] at he
    rcases he with (he | he) | he
    · refine .inl (.inl (.inl ?_))
      simp only [List.mem_cons, List.not_mem_nil, or_false] at he ⊢
      rcases he with rfl | rfl | rfl
      · exact .inl rfl
      · exact .inr (.inl rfl)
      · exact .inr (.inr rfl)
    · exact .inl (.inr (List.mem_map.2 ⟨e, he, rfl⟩))
    · exact .inr (List.mem_map.2 ⟨e, he, rfl⟩)
  · simp only [strip_under]
    rw [if_neg hs]
    exact List.mem_singleton.2 rfl

theorem vector_made (k : Kind) (n : Names) (p : Plan) {v : Name × List (Name × Arg)} (hv : v ∈ p.vects) (hc : Clean v.1)
    {o : Name} (ho : o ∈ columns k v.1) : o ∈ outKeys (bname k) n p := by
  rw [outKeys, List.mem_flatMap]
  refine ⟨under v.1 (bname k), ?_, ?_⟩
  · simp only [ocbNames, List.mem_append, foldl_addNew]
    exact .inl (.inl (.inr (List.mem_map.2 ⟨v, hv, rfl⟩)))
  · simp only [strip_under]
    rw [if_pos (List.mem_map_of_mem hv), (C91_columns_partial k v.1 hc).2]
    exact ho

/-! ## C115 -/

/-- C115: after a call that ends without an exception every new column has metadata, those of other variables have not
changed, and a column that had none before has NaN as fill value and notes that begin with the boundary of this call.
What is missing: columns that had metadata before, see `C115_old_refuted`. -/
theorem C115_described_partial (dflt : Info) (user : ℕ → Name) (b : Name) (s : Source) (n : Names) (p : Plan) (m m' : Meta)
    (h : describe dflt user b s n p m = .ok m') :
    (∀ o ∈ outKeys b n p, (m' o).isSome = true) ∧ (∀ o, o ∉ outKeys b n p → m' o = m o) ∧
      ∀ o ∈ outKeys b n p, m o = none → ∃ i, m' o = some i ∧ i.fillVal = .nan ∧ notesOf s <+: i.notes := by
  have h3 : ∀ o ∈ outKeys b n p, m o = none → ∃ i, m' o = some i ∧ i.fillVal = .nan ∧ notesOf s <+: i.notes := by
    intro o ho hm
    obtain ⟨m1, m2, a1, a2, a3, -⟩ := metaAll_moment h ho hm
    obtain ⟨src, notes, v, rfl, hn⟩ := metaOne_cases a1
    rw [addMeta_new a2] at a3
    obtain ⟨f1, f2⟩ := newInfo_fill dflt (m1 src) o notes v
    exact ⟨_, a3, f1, by rw [f2]; exact hn⟩
  refine ⟨fun o ho => ?_, fun o ho => metaAll_frame h o (.inl ho), h3⟩
  cases hm : m o with
  | none =>
    obtain ⟨i, hi, -⟩ := h3 o ho hm
    rw [hi]; rfl
  | some i => rw [metaAll_frame h o (.inr (by rw [hm]; rfl)), hm]; rfl

/-- C115: a column that already had metadata keeps them, whatever the boundary of this call is. -/
theorem C115_kept (dflt : Info) (user : ℕ → Name) (b : Name) (s : Source) (n : Names) (p : Plan) (m m' : Meta)
    (h : describe dflt user b s n p m = .ok m') (o : Name) (i : Info) (hi : m o = some i) : m' o = some i := by
  rw [metaAll_frame h o (.inr (by rw [hi]; rfl)), hi]

/-- Metadata without content. -/
def emptyInfo : Info := ⟨[], [], [], [], .nan, .nan, .nan, fun _ => none⟩

/-- Two calls for the same variables, with boundaries of two instruments. -/
def twoNames : Names := ⟨"MLAT".toList, "MLT".toList, ["v".toList], [], []⟩

/-- The plan of these names. -/
def twoPlan : Plan := ⟨["v".toList], [], [], ["MLAT".toList, "MLT".toList, "v".toList]⟩

/-- The boundary of the first call. -/
def imageSrc : Source := .one "image".toList "si13.ocb".toList "74.00".toList

/-- The boundary of the second call. -/
def ampereSrc : Source := .one "ampere".toList "amp.ocb".toList "74.00".toList

/-- C115: when the new columns are there already from an earlier call, their values are replaced but their metadata
still name the boundary of the earlier call. -/
theorem C115_old_refuted :
    ∃ m1 m2 i, plan ["MLAT".toList, "MLT".toList, "v".toList] twoNames = .ok twoPlan ∧
      describe emptyInfo (fun _ => []) (bname .ocb) imageSrc twoNames twoPlan (fun _ => none) = .ok m1 ∧
      describe emptyInfo (fun _ => []) (bname .ocb) ampereSrc twoNames twoPlan m1 = .ok m2 ∧
      "v_ocb".toList ∈ outKeys (bname .ocb) twoNames twoPlan ∧ m2 "v_ocb".toList = some i ∧
      notesOf imageSrc <+: i.notes ∧ ¬ notesOf ampereSrc <+: i.notes := by
  have hv : ∀ v ∈ twoPlan.vects, (∃ n, scaleName (fun _ => []) v.2 = .ok n) ∧ ∃ n, firstComp v.2 = .ok n := by
    intro v hv; simp [twoPlan] at hv
  obtain ⟨m1, h1⟩ := metaAll_ok (dflt := emptyInfo) (b := bname .ocb) (s := imageSrc)
    (os := outKeys (bname .ocb) twoNames twoPlan) hv (fun _ => none)
  obtain ⟨m2, h2⟩ := metaAll_ok (dflt := emptyInfo) (b := bname .ocb) (s := ampereSrc)
    (os := outKeys (bname .ocb) twoNames twoPlan) hv m1
  have ho : "v_ocb".toList ∈ outKeys (bname .ocb) twoNames twoPlan := by decide
  obtain ⟨i, hi, -, hn⟩ := (C115_described_partial _ _ _ _ _ _ _ _ h1).2.2 _ ho rfl
  refine ⟨m1, m2, i, by decide, h1, h2, ho, C115_kept _ _ _ _ _ _ _ _ h2 _ _ hi, hn, fun hn' => ?_⟩
  rcases List.prefix_or_prefix_of_prefix hn hn' with h | h
  · revert h; decide
  · revert h; decide

theorem firstComp_some {entries : List (Name × Arg)} {t : Name} (h : FirstComp entries t) : firstComp entries = .ok t := by
  obtain ⟨pre, c, post, rfl, hc, hp⟩ := h
  have h1 : pre.find? (fun k => decide (k.1 ∈ comps)) = none := by
    rw [List.find?_eq_none]
    intro x hx
    have := hp x hx
    simp only [mem_comps, decide_eq_true_eq]
    tauto
  rw [firstComp, List.find?_append, h1, List.find?_cons_of_pos (by simpa [mem_comps] using hc)]
  rfl

theorem scaleName_of {user : ℕ → Name} {entries : List (Name × Arg)}
    (h1 : ∃ a, ("scale_func".toList, a) ∈ entries) (h2 : ∀ a, ("scale_func".toList, a) ∈ entries → ∃ f, a = .fn f) :
    ∃ n, scaleName user entries = .ok n := by
  obtain ⟨a, ha⟩ := h1
  have h3 : (entries.find? fun k => k.1 == "scale_func".toList).isSome = true := by
    rw [List.find?_isSome]
    exact ⟨_, ha, by simp⟩
  obtain ⟨⟨k, a'⟩, hk⟩ := Option.isSome_iff_exists.1 h3
  have hk1 := List.find?_some hk
  simp only [beq_iff_eq] at hk1
  subst hk1
  obtain ⟨f, rfl⟩ := h2 a' (List.mem_of_find?_eq_some hk)
  exact ⟨fnName user f, by rw [scaleName, hk]; rfl⟩

/-- C115: the metadata can be written if each vector has at least one component and is scaled with a function. -/
theorem C115_succeeds (dflt : Info) (user : ℕ → Name) (b : Name) (s : Source) (vars : List Name) (n : Names)
    (hn : (n.vects.map Prod.fst).Nodup) (p : Plan) (hp : plan vars n = .ok p)
    (hf : ∀ v ∈ n.vects, ∀ a, ("scale_func".toList, a) ∈ v.2 → ∃ f, a = .fn f)
    (hc : ∀ v ∈ n.vects, ∃ k a, (k, a) ∈ v.2 ∧ (k = "vect_n".toList ∨ k = "vect_e".toList ∨ k = "vect_z".toList))
    (m : Meta) : ∃ m', describe dflt user b s n p m = .ok m' := by
  have hk : Known vars n := (C99_refused vars n hn).1.2 ⟨p, hp⟩
  refine metaAll_ok (fun w hw => ?_) m
  have hlen : p.vects.length = n.vects.length := by
    obtain ⟨need, h⟩ := (plan_eq vars n hn).1 hk
    rw [h, Except.ok.injEq] at hp
    subst hp
    simp
  obtain ⟨j, hj⟩ := List.mem_iff_getElem?.1 hw
  have hjl : j < n.vects.length := hlen ▸ (List.getElem?_eq_some_iff.1 hj).1
  obtain ⟨⟨e, entries⟩, hje⟩ : ∃ q, n.vects[j]? = some q := ⟨_, List.getElem?_eq_getElem hjl⟩
  have hmem := List.mem_of_getElem? hje
  obtain ⟨entries', h1, h2, h3, h4⟩ := C99_scale vars n hn p hp j e entries hje
  rw [hj, Option.some.injEq] at h1
  subst h1
  refine ⟨scaleName_of h3 fun a ha => ?_, ?_⟩
  · rcases (h2 a).1 ha with ⟨-, h⟩ | ⟨-, -, h⟩ | ⟨-, -, h⟩
    · exact ⟨_, h⟩
    · exact ⟨_, h⟩
    · exact hf _ hmem a h
  · obtain ⟨k, a, ha, hka⟩ := hc _ hmem
    have hkc : k ∈ comps := mem_comps.2 hka
    have ha' := (h4 k a (comps_ne hkc)).2 ha
    have h5 : (entries'.find? fun k => decide (k.1 ∈ comps)).isSome = true := by
      rw [List.find?_isSome]
      exact ⟨_, ha', by simpa using hkc⟩
    obtain ⟨⟨k', a'⟩, hk'⟩ := Option.isSome_iff_exists.1 h5
    have hk1 := List.find?_some hk'
    simp only [decide_eq_true_eq] at hk1
    obtain ⟨t, -, rfl⟩ := (hk.2.2.2.2 _ hmem).2 k' a' ((h4 k' a' (comps_ne hk1)).1 (List.mem_of_find?_eq_some hk'))
      (mem_comps.1 hk1)
    exact ⟨t, by rw [firstComp, hk']; rfl⟩

/-- A vector given by its magnitude only. -/
def magNames : Names :=
  ⟨"MLAT".toList, "MLT".toList, ["e".toList], [], [("e".toList, [("vect_mag".toList, .text "E".toList)])]⟩

/-- C115: a vector without components passes the checks of the names, but the call ends with a KeyError when the metadata
are written, after all values were computed. -/
theorem C115_no_components_refuted (dflt : Info) (user : ℕ → Name) (s : Source) (m : Meta) :
    ∃ p, plan ["MLAT".toList, "MLT".toList, "E".toList] magNames = .ok p ∧
      describe dflt user (bname .ocb) s magNames p m = .error .keyError := by
  refine ⟨⟨[], [], [("e".toList, [("vect_mag".toList, .text "E".toList), ("scale_func".toList, .fn .evar)])],
    ["MLAT".toList, "MLT".toList]⟩, by decide, ?_⟩
  have ho : outKeys (bname .ocb) magNames ⟨[], [], [("e".toList, [("vect_mag".toList, .text "E".toList),
      ("scale_func".toList, .fn .evar)])], ["MLAT".toList, "MLT".toList]⟩ =
      ["MLAT_ocb".toList, "MLT_ocb".toList, "r_corr_ocb".toList, "e_ocb_n".toList, "e_ocb_e".toList, "e_ocb_z".toList,
        "e_ocb_mag".toList, "e_unscaled_r".toList, "e_scaled_r".toList] := by decide
  rw [describe, ho]
  rfl

end Ocb.Meta
