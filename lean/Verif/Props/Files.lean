import Mathlib.Data.List.Infix
import Mathlib.Data.List.Basic
import Mathlib.Data.Int.Order.Basic
import Verif.Model.Files

/-!
# C53, C54, C78, C79: the choice of a boundary file
-/

set_option autoImplicit false

namespace Ocb.Files

/-! ## What file names say -/

/-- The parts with underscores between them. -/
def joined : List Name → Name
  | [] => []
  | [p] => p
  | p :: ps => p ++ '_' :: joined ps

/-- The documented coverage of the known instruments. -/
def coverage (c : Cal) : List (Name × ℤ × ℤ) :=
  [("amp".toList, c.date 2010 1 1, c.date 2022 1 1), ("si12".toList, c.date 2000 5 4, c.date 2002 11 1),
   ("si13".toList, c.date 2000 5 3, c.date 2002 11 1), ("wic".toList, c.date 2000 5 4, c.date 2002 11 1),
   ("image".toList, c.date 2000 5 3, c.date 2002 11 1), ("dmsp-ssj".toList, c.date 2010 1 1, c.tomorrow)]

/-- The documented naming convention: in lower case the name is instrument, hemisphere and further parts, with
underscores between them, and an extension of three letters; the coverage is the documented one for a known
instrument and otherwise given by the third and the fourth part. -/
structure Says (c : Cal) (n inst : Name) (hem s e : ℤ) : Prop where
  parts : ∃ h rest ext, lower n = joined (inst :: h :: rest) ++ '.' :: ext ∧ ext.length = 3 ∧
    (∀ p ∈ inst :: h :: rest, '_' ∉ p) ∧
    (h = "north".toList ∧ hem = 1 ∨ h = "south".toList ∧ hem = -1) ∧
    ((inst, s, e) ∈ coverage c ∨ (∀ x ∈ coverage c, x.1 ≠ inst) ∧
      ∃ d1 d2 more, rest = d1 :: d2 :: more ∧ c.parse d1 = some s ∧ c.parse d2 = some e)

/-- The directory entry is a file of the wanted boundary kind. -/
def IsBoundary (bound : Name) (x : Name × Bool) : Prop :=
  x.2 = true ∧ ¬ ".py".toList <:+: x.1 ∧ ¬ "README".toList <:+: x.1 ∧
    ∃ stem ext, x.1 = stem ++ ext ∧ ext.length = 3 ∧ lower ext = lower bound

/-- The instruments that satisfy a request (`long_to_short` in the documentation of the function). -/
def Accepts (instrument inst : Name) : Prop :=
  (instrument = [] ∧ inst ∈ ["amp".toList, "image".toList, "si12".toList, "si13".toList, "wic".toList, "dmsp-ssj".toList]) ∨
  (instrument = "ampere".toList ∧ inst = "amp".toList) ∨
  (instrument = "image".toList ∧ inst ∈ ["image".toList, "si12".toList, "si13".toList, "wic".toList]) ∨
  (instrument ≠ [] ∧ instrument ≠ "ampere".toList ∧ inst = instrument)

/-- The file answers the request. -/
def Answers (c : Cal) (listing : List (Name × Bool)) (st et : Option ℤ) (hem : ℤ) (instrument bound n inst : Name) : Prop :=
  ∃ s e, (n, true) ∈ listing ∧ IsBoundary bound (n, true) ∧ Says c n inst hem s e ∧ Accepts instrument inst ∧
    ∀ a b, st = some a → et = some b → a ≤ e ∧ s ≤ b

/-! ## Strings -/

theorem split_plain (p : Name) (hp : '_' ∉ p) : split p = [p] := by
  induction p with
  | nil => rfl
  | cons a p ih =>
    rw [List.mem_cons, not_or] at hp
    rw [split, if_neg fun h => hp.1 h.symm, ih hp.2]

theorem split_cons (p q : Name) (hp : '_' ∉ p) : split (p ++ '_' :: q) = p :: split q := by
  induction p with
  | nil => simp [split]
  | cons a p ih =>
    rw [List.mem_cons, not_or] at hp
    rw [List.cons_append, split, if_neg fun h => hp.1 h.symm, ih hp.2]

theorem split_joined (l : List Name) (hl : l ≠ []) (h : ∀ p ∈ l, '_' ∉ p) : split (joined l) = l := by
  induction l with
  | nil => exact absurd rfl hl
  | cons p ps ih =>
    cases ps with
    | nil => exact split_plain p (h p (by simp))
    | cons q qs =>
      rw [joined, split_cons _ _ (h p (by simp)), ih (by simp) fun x hx => h x (List.mem_cons_of_mem _ hx)]
      simp

theorem contains_iff (sub n : Name) : contains sub n = true ↔ sub <:+: n := by
  induction n with
  | nil =>
    rw [contains, List.isEmpty_iff]
    exact List.infix_nil.symm
  | cons a n ih =>
    rw [contains, Bool.or_eq_true, ih, List.isPrefixOf_iff_prefix, List.infix_cons_iff]

theorem cut4_append (a b : Name) (hb : b.length = 4) : cut4 (a ++ b) = a := by
  unfold cut4
  rw [List.length_append, hb, Nat.add_sub_cancel, List.take_left]

theorem relevant_iff (bound : Name) (hb : bound.length = 3) (x : Name × Bool) :
    relevant bound x = true ↔ IsBoundary bound x := by
  unfold relevant IsBoundary
  simp only [Bool.and_eq_true, Bool.not_eq_true', decide_eq_true_eq, ← contains_iff, Bool.not_eq_true]
  have : lower (last3 x.1) = lower bound ↔ ∃ stem ext, x.1 = stem ++ ext ∧ ext.length = 3 ∧ lower ext = lower bound := by
    constructor
    · intro h
      have hl : (last3 x.1).length = 3 := by
        have := congrArg List.length h
        simpa [lower, hb] using this
      exact ⟨x.1.take (x.1.length - 3), last3 x.1, (List.take_append_drop _ _).symm, hl, h⟩
    · rintro ⟨stem, ext, h1, h2, h3⟩
      have : last3 x.1 = ext := by
        unfold last3
        rw [h1, List.length_append, h2, Nat.add_sub_cancel, List.drop_left]
      rw [this, h3]
  rw [this]
  tauto

theorem known_of {c : Cal} {inst : Name} {s e : ℤ} (h : (inst, s, e) ∈ coverage c) : known c inst = some (s, e) := by
  simp only [coverage, List.mem_cons, Prod.mk.injEq, List.not_mem_nil, or_false] at h
  rcases h with ⟨rfl, rfl, rfl⟩ | ⟨rfl, rfl, rfl⟩ | ⟨rfl, rfl, rfl⟩ | ⟨rfl, rfl, rfl⟩ | ⟨rfl, rfl, rfl⟩ |
    ⟨rfl, rfl, rfl⟩ <;> rfl

theorem known_none {c : Cal} {inst : Name} (h : ∀ x ∈ coverage c, x.1 ≠ inst) : known c inst = none := by
  unfold known
  rw [if_neg fun hc => h ("amp".toList, c.date 2010 1 1, c.date 2022 1 1) (by simp [coverage]) hc.symm,
    if_neg fun hc => h ("si12".toList, c.date 2000 5 4, c.date 2002 11 1) (by simp [coverage]) hc.symm,
    if_neg fun hc => h ("si13".toList, c.date 2000 5 3, c.date 2002 11 1) (by simp [coverage]) hc.symm,
    if_neg fun hc => h ("wic".toList, c.date 2000 5 4, c.date 2002 11 1) (by simp [coverage]) hc.symm,
    if_neg fun hc => h ("image".toList, c.date 2000 5 3, c.date 2002 11 1) (by simp [coverage]) hc.symm,
    if_neg fun hc => h ("dmsp-ssj".toList, c.date 2010 1 1, c.tomorrow) (by simp [coverage]) hc.symm]

/-- A name that follows the convention is read accordingly. -/
theorem entry_says {c : Cal} {n inst : Name} {hem s e : ℤ} (h : Says c n inst hem s e) :
    entry c n = .ok { inst := inst, hem := hem, stime := some s, etime := some e } := by
  obtain ⟨h, rest, ext, h1, h2, h3, h4, h5⟩ := h.parts
  have hs : split (cut4 (lower n)) = inst :: h :: rest := by
    rw [h1, cut4_append _ _ (by simp [h2]), split_joined _ (by simp) h3]
  have hh : hemi h = .ok hem := by
    rcases h4 with ⟨rfl, rfl⟩ | ⟨rfl, rfl⟩ <;> rfl
  unfold entry
  simp only [hs, part, List.getElem?_cons_zero, List.getElem?_cons_succ, bind, Except.bind, hh, pure, Except.pure]
  rcases h5 with h5 | ⟨h5, d1, d2, more, rfl, p1, p2⟩
  · rw [known_of h5]
  · rw [known_none h5]
    simp only [List.getElem?_cons_zero, List.getElem?_cons_succ, p1, p2]

/-- A name says one thing only. -/
theorem Says.unique {c : Cal} {n i i' : Name} {h h' s s' e e' : ℤ} (a : Says c n i h s e) (b : Says c n i' h' s' e') :
    i = i' ∧ h = h' ∧ s = s' ∧ e = e' := by
  have := (entry_says a).symm.trans (entry_says b)
  simpa using this

theorem accept_iff (instrument inst : Name) : inst ∈ accept instrument ↔ Accepts instrument inst := by
  show _ ↔ (instrument = [] ∧ inst ∈ [amp, image, si12, si13, wic, dmsp]) ∨
    (instrument = "ampere".toList ∧ inst = amp) ∨ (instrument = image ∧ inst ∈ [image, si12, si13, wic]) ∨
    (instrument ≠ [] ∧ instrument ≠ "ampere".toList ∧ inst = instrument)
  have a1 : ("ampere".toList : Name) ≠ [] := by decide
  have a2 : image ≠ [] := by decide
  have a3 : image ≠ "ampere".toList := by decide
  have a4 : dmsp ≠ image := by decide
  unfold accept
  generalize "ampere".toList = ampere at *
  generalize amp = amp at *
  generalize image = image at *
  generalize dmsp = dmsp at *
  generalize si12 = si12 at *
  generalize si13 = si13 at *
  generalize wic = wic at *
  split_ifs with h1 h2 h3 h4
  all_goals simp only [List.mem_cons, List.not_mem_nil, or_false]
  all_goals first | subst h1 | skip
  all_goals grind

/-! ## The list of files that answer -/

/-- All boundary files of the listing follow the naming convention. -/
def WellNamed (c : Cal) (bound : Name) (listing : List (Name × Bool)) : Prop :=
  ∀ x ∈ listing, IsBoundary bound x → ∃ inst hem s e, Says c x.1 inst hem s e

/-- What the entry of a file holds, if there is one. -/
def infoOf (c : Cal) (n : Name) : Info :=
  match entry c n with
  | .ok i => i
  | .error _ => { inst := [], hem := 0, stime := none, etime := none }

theorem infoOf_says {c : Cal} {n inst : Name} {hem s e : ℤ} (h : Says c n inst hem s e) :
    infoOf c n = { inst := inst, hem := hem, stime := some s, etime := some e } := by
  unfold infoOf; rw [entry_says h]

theorem mapE_eq {α β : Type*} (f : α → Except PyErr β) (g : α → β) (l : List α) (h : ∀ x ∈ l, f x = .ok (g x)) :
    Ocb.mapE f l = .ok (l.map g) := by
  induction l with
  | nil => rfl
  | cons x xs ih =>
    rw [Ocb.mapE, h x (by simp)]
    simp only [bind, Except.bind]
    rw [ih fun y hy => h y (by simp [hy])]
    rfl

theorem files_ok {c : Cal} {bound : Name} (hb : bound.length = 3) {listing : List (Name × Bool)}
    (hw : WellNamed c bound listing) :
    boundaryFiles c bound listing = .ok ((listing.filter (relevant bound)).map fun x => (x.1, infoOf c x.1)) := by
  unfold boundaryFiles
  apply mapE_eq
  intro x hx
  obtain ⟨h1, h2⟩ := List.mem_filter.1 hx
  obtain ⟨inst, hem, s, e, h⟩ := hw x h1 ((relevant_iff bound hb x).1 h2)
  rw [entry_says h, infoOf_says h]
  rfl

/-- The test as a truth value, for complete entries. -/
def fitsB (i : Info) (inst : List Name) (hem : ℤ) (st et : Option ℤ) : Bool :=
  match fits i inst hem st et with
  | .ok b => b
  | .error _ => false

theorem fits_ok (i : Info) (inst : List Name) (hem : ℤ) (st et : Option ℤ) (s e : ℤ) (hs : i.stime = some s)
    (he : i.etime = some e) : fits i inst hem st et = .ok (fitsB i inst hem st et) ∧
      (fitsB i inst hem st et = true ↔ i.hem = hem ∧ i.inst ∈ inst ∧ ∀ a b, st = some a → et = some b → a ≤ e ∧ s ≤ b) := by
  unfold fitsB fits
  rw [hs, he]
  by_cases h : i.hem = hem ∧ i.inst ∈ inst
  · rw [if_pos h]
    cases st with
    | none => simp [h]
    | some a =>
      cases et with
      | none => simp [h]
      | some b =>
        by_cases ha : a ≤ e
        · simp [h, ha]
        · simp [ha]
  · rw [if_neg h]
    refine ⟨rfl, ?_⟩
    simp only [Bool.false_eq_true, false_iff]
    tauto

theorem goodFiles_ok (inst : List Name) (hem : ℤ) (st et : Option ℤ) (l : List (Name × Info))
    (h : ∀ f ∈ l, fits f.2 inst hem st et = .ok (fitsB f.2 inst hem st et)) :
    goodFiles inst hem st et l = .ok (l.filter fun f => fitsB f.2 inst hem st et) := by
  induction l with
  | nil => rfl
  | cons f fs ih =>
    rw [goodFiles, h f (by simp), ih fun g hg => h g (by simp [hg])]
    simp only [bind, Except.bind, pure, Except.pure, List.filter_cons]

/-- The files that answer, in the order of the listing. -/
theorem good_spec {c : Cal} {bound : Name} (hb : bound.length = 3) {listing : List (Name × Bool)}
    (hw : WellNamed c bound listing) (st et : Option ℤ) (hem : ℤ) (instrument : Name) :
    ∃ l : List (Name × Bool), (∃ g, l = listing.filter g) ∧ (boundaryFiles c bound listing).bind (goodFiles (accept instrument) hem st et) =
        .ok (l.map fun x => (x.1, infoOf c x.1)) ∧
      (∀ x ∈ l, x.2 = true ∧ Answers c listing st et hem instrument bound x.1 (infoOf c x.1).inst) ∧
      ∀ n inst, Answers c listing st et hem instrument bound n inst → (n, true) ∈ l ∧ (infoOf c n).inst = inst := by
  set l := (listing.filter (relevant bound)).filter fun x => fitsB (infoOf c x.1) (accept instrument) hem st et with hl
  have hmem : ∀ x ∈ listing.filter (relevant bound), ∃ inst hem s e, Says c x.1 inst hem s e ∧ IsBoundary bound x ∧
      x ∈ listing := by
    intro x hx
    obtain ⟨h1, h2⟩ := List.mem_filter.1 hx
    obtain ⟨inst, hem, s, e, h⟩ := hw x h1 ((relevant_iff bound hb x).1 h2)
    exact ⟨inst, hem, s, e, h, (relevant_iff bound hb x).1 h2, h1⟩
  refine ⟨l, ⟨_, by rw [hl, List.filter_filter]⟩, ?_, ?_, ?_⟩
  · rw [files_ok hb hw]
    simp only [Except.bind]
    rw [goodFiles_ok, List.filter_map]
    · rfl
    · intro f hf
      obtain ⟨x, hx, rfl⟩ := List.mem_map.1 hf
      obtain ⟨inst, hem', s, e, h, -⟩ := hmem x hx
      rw [infoOf_says h]
      exact (fits_ok _ _ _ _ _ s e rfl rfl).1
  · intro x hx
    obtain ⟨h1, h2⟩ := List.mem_filter.1 hx
    obtain ⟨inst, hem', s, e, h, h3, h4⟩ := hmem x h1
    have hx2 : x.2 = true := h3.1
    obtain ⟨n, b⟩ := x
    simp only at hx2
    subst hx2
    simp only at h h2
    rw [infoOf_says h] at h2
    obtain ⟨f1, f2, f3⟩ := (fits_ok _ _ _ _ _ s e rfl rfl).2.1 h2
    simp only at f1 f2 f3
    subst f1
    refine ⟨rfl, s, e, h4, h3, ?_, ?_, f3⟩
    · simp only; rw [infoOf_says h]; exact h
    · simp only; rw [infoOf_says h]; exact (accept_iff _ _).1 f2
  · rintro n inst ⟨s, e, a1, a2, a3, a4, a5⟩
    rw [infoOf_says a3]
    refine ⟨List.mem_filter.2 ⟨List.mem_filter.2 ⟨a1, (relevant_iff bound hb _).2 a2⟩, ?_⟩, rfl⟩
    simp only
    rw [infoOf_says a3]
    exact (fits_ok _ _ _ _ _ s e rfl rfl).2.2 ⟨rfl, (accept_iff _ _).2 a4, a5⟩

/-! ## C53 and C54 -/

/-- The instrument that is reported for a file. -/
def Reported (inst out : Name) : Prop :=
  inst = "amp".toList ∧ out = "ampere".toList ∨
  inst ∈ ["si12".toList, "si13".toList, "wic".toList] ∧ out = "image".toList ∨
  inst ∉ ["amp".toList, "si12".toList, "si13".toList, "wic".toList] ∧ out = inst

theorem longName_spec (inst : Name) : Reported inst (longName inst) := by
  show inst = amp ∧ longName inst = "ampere".toList ∨ inst ∈ [si12, si13, wic] ∧ longName inst = image ∨
    inst ∉ [amp, si12, si13, wic] ∧ longName inst = inst
  unfold longName
  split_ifs with h1 h2
  · exact .inl ⟨h1, rfl⟩
  · exact .inr (.inl ⟨by simpa using h2, rfl⟩)
  · refine .inr (.inr ⟨?_, rfl⟩)
    simp only [List.mem_cons, List.not_mem_nil, or_false]
    tauto

theorem leastLast_spec : ∀ (l : List (ℕ × (Name × Info))), l ≠ [] → ∃ x pre post, leastLast l = some x ∧
    l = pre ++ x :: post ∧ (∀ y ∈ pre, x.1 ≤ y.1) ∧ ∀ y ∈ post, x.1 < y.1
  | [], h => absurd rfl h
  | [x], _ => ⟨x, [], [], rfl, rfl, by simp, by simp⟩
  | x :: z :: zs, _ => by
    obtain ⟨y, pre, post, h1, h2, h3, h4⟩ := leastLast_spec (z :: zs) (by simp)
    rw [leastLast, h1]
    simp only
    split_ifs with hlt
    · refine ⟨x, [], z :: zs, rfl, rfl, by simp, fun w hw => ?_⟩
      rw [h2] at hw
      rcases List.mem_append.1 hw with hw | hw
      · exact hlt.trans_le (h3 w hw)
      · rcases List.mem_cons.1 hw with rfl | hw
        · exact hlt
        · exact hlt.trans (h4 w hw)
    · refine ⟨y, x :: pre, post, rfl, by rw [h2]; rfl, fun w hw => ?_, h4⟩
      rcases List.mem_cons.1 hw with rfl | hw
      · exact not_lt.1 hlt
      · exact h3 w hw

/-- The documented order of preference. -/
def order : List Name :=
  ["image".toList, "amp".toList, "si13".toList, "si12".toList, "wic".toList, "dmsp-ssj".toList]

/-- The requests for which every acceptable instrument has a place in the order. -/
def KnownRequest (instrument : Name) : Prop := instrument = [] ∨ instrument = "ampere".toList ∨ instrument ∈ order

theorem accepts_order {instrument inst : Name} (hk : KnownRequest instrument) (h : Accepts instrument inst) :
    inst ∈ order := by
  rcases h with ⟨-, h⟩ | ⟨-, rfl⟩ | ⟨-, h⟩ | ⟨h1, h2, rfl⟩
  · simp only [order, List.mem_cons] at h ⊢; tauto
  · simp [order]
  · simp only [order, List.mem_cons] at h ⊢; tauto
  · exact (hk.resolve_left h1).resolve_left h2

theorem choose_ranked (instrument : Name) (l : List (Name × Info)) (hl : l ≠ []) (hr : ∀ f ∈ l, f.2.inst ∈ order) :
    ∃ f pre post, choose instrument l = .ok (some f.1, longName f.2.inst) ∧ l = pre ++ f :: post ∧
      (∀ g ∈ pre, order.idxOf f.2.inst ≤ order.idxOf g.2.inst) ∧
      ∀ g ∈ post, order.idxOf f.2.inst < order.idxOf g.2.inst := by
  have hrank : ∀ f ∈ l, (rank f.2.inst).map (fun k => (k, f)) = .ok (order.idxOf f.2.inst, f) := by
    intro f hf
    have : rank f.2.inst = .ok (order.idxOf f.2.inst) := by
      unfold rank; exact if_pos (hr f hf)
    rw [this]; rfl
  match l, hl, hr, hrank with
  | [f], _, _, _ => exact ⟨f, [], [], rfl, rfl, by simp, by simp⟩
  | f :: g :: l, _, _, hrank =>
    obtain ⟨x, pre, post, h1, h2, h3, h4⟩ := leastLast_spec ((f :: g :: l).map fun f => (order.idxOf f.2.inst, f)) (by simp)
    obtain ⟨a, b, e1, e2, e3⟩ := List.map_eq_append_iff.1 h2
    obtain ⟨y, b', rfl, e4, e5⟩ := List.map_eq_cons_iff.1 e3
    refine ⟨y, a, b', ?_, e1, ?_, ?_⟩
    · unfold choose
      simp only
      rw [mapE_eq _ _ _ hrank]
      simp only [bind, Except.bind]
      rw [h1, ← e4]
      rfl
    · intro w hw
      have := h3 (order.idxOf w.2.inst, w) (by rw [← e2]; exact List.mem_map.2 ⟨w, hw, rfl⟩)
      rw [← e4] at this
      exact this
    · intro w hw
      have := h4 (order.idxOf w.2.inst, w) (by rw [← e5]; exact List.mem_map.2 ⟨w, hw, rfl⟩)
      rw [← e4] at this
      exact this

/-- C53: for a known instrument, or none, the call succeeds; it returns no file exactly if no listed file answers the
request, and the file it returns answers the request. -/
theorem C53_default_file {c : Cal} {bound : Name} (hb : bound.length = 3) {listing : List (Name × Bool)}
    (hw : WellNamed c bound listing) (st et : Option ℤ) (hem : ℤ) (instrument : Name) (hk : KnownRequest instrument) :
    (∃ n inst out, getDefault c listing st et hem instrument bound = .ok (some n, out) ∧
      Answers c listing st et hem instrument bound n inst ∧ Reported inst out) ∨
    (getDefault c listing st et hem instrument bound = .ok (none, instrument) ∧
      ∀ n inst, ¬ Answers c listing st et hem instrument bound n inst) := by
  obtain ⟨l, -, h1, h2, h3⟩ := good_spec hb hw st et hem instrument
  unfold getDefault
  rw [h1]
  cases l with
  | nil => exact .inr ⟨rfl, fun n inst h => absurd (h3 n inst h).1 (by simp)⟩
  | cons x xs =>
    left
    obtain ⟨f, pre, post, e1, e2, -⟩ := choose_ranked instrument ((x :: xs).map fun x => (x.1, infoOf c x.1)) (by simp) (by
      intro f hf
      obtain ⟨y, hy, rfl⟩ := List.mem_map.1 hf
      obtain ⟨-, s, e, -, -, -, ha, -⟩ := h2 y hy
      exact accepts_order hk ha)
    have hf : f ∈ (x :: xs).map fun x => (x.1, infoOf c x.1) := by rw [e2]; simp
    obtain ⟨y, hy, rfl⟩ := List.mem_map.1 hf
    exact ⟨y.1, _, _, e1, (h2 y hy).2, longName_spec _⟩

/-- C54: the file returned comes from the first instrument in the order that has a file that answers, and of its files
it is the last one in the listing. -/
theorem C54_order {c : Cal} {bound : Name} (hb : bound.length = 3) {listing : List (Name × Bool)}
    (hw : WellNamed c bound listing) (st et : Option ℤ) (hem : ℤ) (instrument : Name) (hk : KnownRequest instrument)
    (n out : Name) (h : getDefault c listing st et hem instrument bound = .ok (some n, out)) :
    ∃ inst pre post, Answers c listing st et hem instrument bound n inst ∧ listing = pre ++ (n, true) :: post ∧
      (∀ n' inst', Answers c listing st et hem instrument bound n' inst' → order.idxOf inst ≤ order.idxOf inst') ∧
      ∀ n' inst', (n', true) ∈ post → Answers c listing st et hem instrument bound n' inst' → inst' ≠ inst := by
  obtain ⟨l, ⟨g, hg⟩, h1, h2, h3⟩ := good_spec hb hw st et hem instrument
  unfold getDefault at h
  rw [h1] at h
  have hne : l ≠ [] := by rintro rfl; cases h
  obtain ⟨f, pre, post, e1, e2, e3, e4⟩ := choose_ranked instrument (l.map fun x => (x.1, infoOf c x.1)) (by simpa using hne) (by
    intro f hf
    obtain ⟨y, hy, rfl⟩ := List.mem_map.1 hf
    obtain ⟨-, s, e, -, -, -, ha, -⟩ := h2 y hy
    exact accepts_order hk ha)
  simp only [Except.bind] at h
  rw [e1] at h
  obtain ⟨a, b, l1, l2, l3⟩ := List.map_eq_append_iff.1 e2
  obtain ⟨y, b', rfl, l4, l5⟩ := List.map_eq_cons_iff.1 l3
  have hy : y ∈ l := by rw [l1]; simp
  subst l4
  have hyn : y.1 = n := by
    have := congrArg Prod.fst (Except.ok.inj h)
    simpa using this
  have hyt : y = (n, true) := Prod.ext hyn (h2 y hy).1
  rw [hg] at l1
  obtain ⟨P, R, r1, r2, r3⟩ := List.filter_eq_append_iff.1 l1
  obtain ⟨P', Q, r4, r5, r6, r7⟩ := List.filter_eq_cons_iff.1 r3
  refine ⟨(infoOf c n).inst, P ++ P', Q, ?_, by rw [r1, r4, hyt]; simp, ?_, ?_⟩
  · have := (h2 y hy).2
    rwa [hyn] at this
  · intro n' inst' ha
    obtain ⟨m1, m2⟩ := h3 n' inst' ha
    rw [← m2]
    have hm : (n', infoOf c n') ∈ l.map fun x => (x.1, infoOf c x.1) := List.mem_map.2 ⟨_, m1, rfl⟩
    rw [e2] at hm
    simp only [hyn] at e3 e4
    rcases List.mem_append.1 hm with hm | hm
    · exact e3 _ hm
    · rcases List.mem_cons.1 hm with hm | hm
      · have hnn : n' = n := by rw [← hyn]; exact congrArg Prod.fst hm
        rw [hnn]
      · exact (e4 _ hm).le
  · intro n' inst' hq ha
    obtain ⟨m1, m2⟩ := h3 n' inst' ha
    rw [← m2]
    rw [hg] at m1
    have hgn := (List.mem_filter.1 m1).2
    have hb' : (n', true) ∈ b' := by rw [← r7]; exact List.mem_filter.2 ⟨hq, hgn⟩
    have hp : (n', infoOf c n') ∈ post := by rw [← l5]; exact List.mem_map.2 ⟨_, hb', rfl⟩
    have := e4 _ hp
    simp only [hyn] at this
    intro hc
    rw [hc] at this
    exact lt_irrefl _ this

/-- C54 for an instrument outside the order: two files that answer make the call raise ValueError. -/
theorem C54_unknown {c : Cal} {bound : Name} (hb : bound.length = 3) {listing : List (Name × Bool)}
    (hw : WellNamed c bound listing) (st et : Option ℤ) (hem : ℤ) (instrument : Name) (hk : ¬ KnownRequest instrument)
    (n n' inst inst' : Name) (hn : n ≠ n') (h : Answers c listing st et hem instrument bound n inst)
    (h' : Answers c listing st et hem instrument bound n' inst') :
    getDefault c listing st et hem instrument bound = .error .valueError := by
  obtain ⟨l, -, h1, h2, h3⟩ := good_spec hb hw st et hem instrument
  unfold getDefault
  rw [h1]
  have m1 := (h3 n inst h).1
  have m2 := (h3 n' inst' h').1
  match l, m1, m2, h2 with
  | [x], m1, m2, _ =>
    have e1 := List.mem_singleton.1 m1
    have e2 := List.mem_singleton.1 m2
    rw [← e1] at e2
    exact absurd (Prod.ext_iff.1 e2).1.symm hn
  | x :: y :: l, _, _, h2 =>
    simp only [Except.bind, List.map_cons, choose, Ocb.mapE, bind]
    have hx : rank (infoOf c x.1).inst = .error .valueError := by
      obtain ⟨-, s, e, -, -, -, ha, -⟩ := h2 x (by simp)
      have : (infoOf c x.1).inst = instrument := by
        rcases ha with ⟨rfl, -⟩ | ⟨rfl, -⟩ | ⟨rfl, -⟩ | ⟨-, -, h⟩
        · exact absurd (.inl rfl) hk
        · exact absurd (.inr (.inl rfl)) hk
        · exact absurd (.inr (.inr (by simp [order]))) hk
        · exact h
      unfold rank
      rw [if_neg]
      rw [this]
      intro hc
      exact hk (.inr (.inr hc))
    rw [hx]
    rfl

/-! ## Examples -/

theorem says_amp (c : Cal) : Says c "amp_north_radii.ocb".toList "amp".toList 1 (c.date 2010 1 1) (c.date 2022 1 1) :=
  ⟨"north".toList, ["radii".toList], "ocb".toList, by decide, by decide, by decide, .inl ⟨rfl, rfl⟩,
    .inl (by simp [coverage])⟩

theorem says_image (c : Cal) : Says c "image_north_circle.ocb".toList "image".toList 1 (c.date 2000 5 3) (c.date 2002 11 1) :=
  ⟨"north".toList, ["circle".toList], "ocb".toList, by decide, by decide, by decide, .inl ⟨rfl, rfl⟩,
    .inl (by simp [coverage])⟩

/-- A listing with AMPERE and IMAGE files. -/
def exListing : List (Name × Bool) :=
  [("__init__.py".toList, true), ("README.md".toList, true), ("amp_north_radii.ocb".toList, true),
   ("image_north_circle.ocb".toList, true), ("image_north_circle.eab".toList, true)]

theorem exListing_cases (x : Name × Bool) (hx : x ∈ exListing) (h : IsBoundary "ocb".toList x) :
    x.1 = "amp_north_radii.ocb".toList ∨ x.1 = "image_north_circle.ocb".toList := by
  have h' := (relevant_iff "ocb".toList (by decide) x).2 h
  simp only [exListing, List.mem_cons, List.not_mem_nil, or_false] at hx
  rcases hx with rfl | rfl | rfl | rfl | rfl
  · exact absurd h' (by decide)
  · exact absurd h' (by decide)
  · exact .inl rfl
  · exact .inr rfl
  · exact absurd h' (by decide)

/-- The listing is well named and two files answer an open request for the northern hemisphere, so that the order
decides. -/
example (c : Cal) : WellNamed c "ocb".toList exListing ∧
    Answers c exListing none none 1 [] "ocb".toList "amp_north_radii.ocb".toList "amp".toList ∧
    Answers c exListing none none 1 [] "ocb".toList "image_north_circle.ocb".toList "image".toList := by
  refine ⟨fun x hx h => ?_, ⟨_, _, ?_, ?_, says_amp c, .inl ⟨rfl, by simp⟩, by simp⟩,
    ⟨_, _, ?_, ?_, says_image c, .inl ⟨rfl, by simp⟩, by simp⟩⟩
  · rcases exListing_cases x hx h with h | h <;> rw [h]
    · exact ⟨_, _, _, _, says_amp c⟩
    · exact ⟨_, _, _, _, says_image c⟩
  · simp [exListing]
  · exact (relevant_iff _ (by decide) _).1 (by decide)
  · simp [exListing]
  · exact (relevant_iff _ (by decide) _).1 (by decide)

/-- Two files of another instrument answer a request for it. -/
example (c : Cal) (p1 : c.parse "20010101".toList = some 0) (p2 : c.parse "20020101".toList = some 9) :
    Says c "foo_south_20010101_20020101_a.ocb".toList "foo".toList (-1) 0 9 ∧
    Says c "foo_south_20010101_20020101_b.ocb".toList "foo".toList (-1) 0 9 ∧ ¬ KnownRequest "foo".toList := by
  have hn : ∀ x ∈ coverage c, x.1 ≠ "foo".toList := by
    intro x hx
    simp only [coverage, List.mem_cons, List.not_mem_nil, or_false] at hx
    rcases hx with rfl | rfl | rfl | rfl | rfl | rfl <;> (simp only [ne_eq]; decide)
  refine ⟨⟨"south".toList, ["20010101".toList, "20020101".toList, "a".toList], "ocb".toList, by decide, by decide, by decide,
      .inr ⟨rfl, rfl⟩, .inr ⟨hn, _, _, _, rfl, p1, p2⟩⟩,
    ⟨"south".toList, ["20010101".toList, "20020101".toList, "b".toList], "ocb".toList, by decide, by decide, by decide,
      .inr ⟨rfl, rfl⟩, .inr ⟨hn, _, _, _, rfl, p1, p2⟩⟩, ?_⟩
  unfold KnownRequest order
  decide

/-! ## C78: a stray file -/

/-- C78 is false: one boundary file whose name has no hemisphere in second place makes every request fail, whatever it
asks for. -/
theorem C78_stray_refuted (c : Cal) {bound : Name} (hb : bound.length = 3) (pre post : List (Name × Bool))
    (hw : WellNamed c bound pre) (x : Name × Bool) (hx : IsBoundary bound x) (inst : Name) (rest : List Name) (ext : Name)
    (hparts : ∀ p ∈ inst :: rest, '_' ∉ p) (hn : lower x.1 = joined (inst :: rest) ++ '.' :: ext) (hext : ext.length = 3)
    (hh : rest.head? ≠ some "north".toList ∧ rest.head? ≠ some "south".toList) (st et : Option ℤ) (hem : ℤ)
    (instrument : Name) : ∃ e, getDefault c (pre ++ x :: post) st et hem instrument bound = .error e := by
  have hs : split (cut4 (lower x.1)) = inst :: rest := by
    rw [hn, cut4_append _ _ (by simp [hext]), split_joined _ (by simp) hparts]
  obtain ⟨e, he⟩ : ∃ e, entry c x.1 = .error e := by
    unfold entry
    simp only [hs, part, List.getElem?_cons_zero, List.getElem?_cons_succ, bind, Except.bind]
    cases rest with
    | nil => exact ⟨_, rfl⟩
    | cons h rest =>
      simp only [List.head?_cons, ne_eq, Option.some.injEq] at hh
      simp only [List.getElem?_cons_zero, hemi, hh, if_false]
      exact ⟨_, rfl⟩
  have gen : ∀ l : List (Name × Bool), (∀ y ∈ l, ∃ i, entry c y.1 = .ok i) →
      Ocb.mapE (fun e => (entry c e.1).map fun i => (e.1, i)) (l ++ x :: post.filter (relevant bound)) = .error e := by
    intro l hl
    induction l with
    | nil => rw [List.nil_append, Ocb.mapE, he]; rfl
    | cons y l ih =>
      obtain ⟨i, hi⟩ := hl y (by simp)
      rw [List.cons_append, Ocb.mapE, hi,
        show (Except.ok i : Except PyErr Info).map (fun i => (y.1, i)) = .ok (y.1, i) from rfl]
      simp only [bind, Except.bind]
      rw [ih fun z hz => hl z (by simp [hz])]
  refine ⟨e, ?_⟩
  unfold getDefault boundaryFiles
  rw [List.filter_append, List.filter_cons, if_pos ((relevant_iff bound hb x).2 hx), gen]
  · rfl
  · intro y hy
    obtain ⟨h1, h2⟩ := List.mem_filter.1 hy
    obtain ⟨i, hem, s, e, h⟩ := hw y h1 ((relevant_iff bound hb y).1 h2)
    exact ⟨_, entry_says h⟩

/-- For instance a file called `my_boundary.ocb`. -/
example : IsBoundary "ocb".toList ("my_boundary.ocb".toList, true) ∧
    lower "my_boundary.ocb".toList = joined ["my".toList, "boundary".toList] ++ '.' :: "ocb".toList := by
  exact ⟨(relevant_iff _ (by decide) _).1 (by decide), by decide⟩

theorem mapE_append {α β : Type*} (f : α → Except PyErr β) (l m : List α) :
    Ocb.mapE f (l ++ m) = (Ocb.mapE f l).bind fun a => (Ocb.mapE f m).map fun b => a ++ b := by
  induction l with
  | nil => cases h : Ocb.mapE f m <;> simp [Ocb.mapE, Except.bind, Except.map, h]
  | cons x l ih =>
    rw [List.cons_append, Ocb.mapE, Ocb.mapE]
    simp only [bind, Except.bind, ih]
    cases f x with
    | error e => rfl
    | ok y =>
      cases Ocb.mapE f l with
      | error e => rfl
      | ok a => cases Ocb.mapE f m <;> rfl

theorem goodFiles_skip (inst : List Name) (hem : ℤ) (st et : Option ℤ) (a b : List (Name × Info)) (f : Name × Info)
    (hf : fits f.2 inst hem st et = .ok false) :
    goodFiles inst hem st et (a ++ f :: b) = goodFiles inst hem st et (a ++ b) := by
  induction a with
  | nil =>
    rw [List.nil_append, List.nil_append, goodFiles, hf]
    simp only [bind, Except.bind, pure, Except.pure, Bool.false_eq_true, if_false]
    cases goodFiles inst hem st et b <;> rfl
  | cons g a ih => rw [List.cons_append, List.cons_append, goodFiles, goodFiles, ih]

/-- C78 as far as it holds: a file with a hemisphere in second place and dates, or other text, in third and fourth place
that do not parse changes no answer to a request for other instruments or the other hemisphere, whatever else is in the
listing.  Missing: other names (refuted above) and requests for the instrument of the file (refuted below). -/
theorem C78_dates_partial (c : Cal) {bound : Name} (pre post : List (Name × Bool)) (x : Name × Bool)
    (inst h d1 d2 : Name) (rest : List Name) (ext : Name)
    (hparts : ∀ p ∈ inst :: h :: d1 :: d2 :: rest, '_' ∉ p)
    (hn : lower x.1 = joined (inst :: h :: d1 :: d2 :: rest) ++ '.' :: ext) (hext : ext.length = 3) (hem hx : ℤ)
    (hh : h = "north".toList ∧ hx = 1 ∨ h = "south".toList ∧ hx = -1) (st et : Option ℤ) (instrument : Name)
    (hr : hx ≠ hem ∨ ¬ Accepts instrument inst) :
    getDefault c (pre ++ x :: post) st et hem instrument bound = getDefault c (pre ++ post) st et hem instrument bound := by
  by_cases hrel : relevant bound x = true
  · have hs : split (cut4 (lower x.1)) = inst :: h :: d1 :: d2 :: rest := by
      rw [hn, cut4_append _ _ (by simp [hext]), split_joined _ (by simp) hparts]
    have hemi' : hemi h = .ok hx := by rcases hh with ⟨rfl, rfl⟩ | ⟨rfl, rfl⟩ <;> rfl
    obtain ⟨i, hi, i1, i2⟩ : ∃ i, entry c x.1 = .ok i ∧ i.inst = inst ∧ i.hem = hx := by
      unfold entry
      simp only [hs, part, List.getElem?_cons_zero, List.getElem?_cons_succ, bind, Except.bind, hemi', pure, Except.pure]
      cases known c inst with
      | some p => exact ⟨_, rfl, rfl, rfl⟩
      | none =>
        simp only
        cases c.parse d1 with
        | none => exact ⟨_, rfl, rfl, rfl⟩
        | some s =>
          simp only
          cases c.parse d2 with
          | none => exact ⟨_, rfl, rfl, rfl⟩
          | some e => exact ⟨_, rfl, rfl, rfl⟩
    have hf : fits i (accept instrument) hem st et = .ok false := by
      unfold fits
      rw [if_neg]
      rintro ⟨h1, h2⟩
      rw [i2] at h1
      rw [i1, accept_iff] at h2
      exact hr.elim (fun h => h h1) fun h => h h2
    unfold getDefault boundaryFiles
    rw [List.filter_append, List.filter_cons, if_pos hrel, List.filter_append, mapE_append, mapE_append]
    cases Ocb.mapE (fun e => (entry c e.1).map fun i => (e.1, i)) (pre.filter (relevant bound)) with
    | error e => rfl
    | ok a =>
      simp only [Except.bind, Ocb.mapE]
      rw [hi, show (Except.ok i : Except PyErr Info).map (fun i => (x.1, i)) = .ok (x.1, i) from rfl]
      simp only [bind, Except.bind]
      cases Ocb.mapE (fun e => (entry c e.1).map fun i => (e.1, i)) (post.filter (relevant bound)) with
      | error e => rfl
      | ok b =>
        simp only [Except.map, pure, Except.pure]
        rw [goodFiles_skip _ _ _ _ _ _ _ hf]
  · unfold getDefault boundaryFiles
    rw [List.filter_append, List.filter_cons, if_neg hrel, List.filter_append]

theorem goodFiles_stop (inst : List Name) (hem : ℤ) (st et : Option ℤ) (a b : List (Name × Info)) (f : Name × Info)
    (e : PyErr) (ha : ∀ g ∈ a, ∃ r, fits g.2 inst hem st et = .ok r) (hf : fits f.2 inst hem st et = .error e) :
    goodFiles inst hem st et (a ++ f :: b) = .error e := by
  induction a with
  | nil => rw [List.nil_append, goodFiles, hf]; rfl
  | cons g a ih =>
    obtain ⟨r, hr⟩ := ha g (by simp)
    rw [List.cons_append, goodFiles, hr, ih fun x hx => ha x (by simp [hx])]
    rfl

theorem entries_named {c : Cal} {bound : Name} (hb : bound.length = 3) {l : List (Name × Bool)} (hw : WellNamed c bound l) :
    ∃ a, Ocb.mapE (fun e => (entry c e.1).map fun i => (e.1, i)) (l.filter (relevant bound)) = .ok a ∧
      ∀ g ∈ a, ∃ s e, g.2.stime = some s ∧ g.2.etime = some e := by
  have gen : ∀ m : List (Name × Bool), (∀ y ∈ m, ∃ i s e, entry c y.1 = .ok i ∧ i.stime = some s ∧ i.etime = some e) →
      ∃ a, Ocb.mapE (fun e => (entry c e.1).map fun i => (e.1, i)) m = .ok a ∧
        ∀ g ∈ a, ∃ s e, g.2.stime = some s ∧ g.2.etime = some e := by
    intro m hm
    induction m with
    | nil => exact ⟨[], rfl, by simp⟩
    | cons y m ih =>
      obtain ⟨i, s, e, hi, h1, h2⟩ := hm y (by simp)
      obtain ⟨a, ha, hg⟩ := ih fun z hz => hm z (by simp [hz])
      refine ⟨(y.1, i) :: a, ?_, ?_⟩
      · rw [Ocb.mapE, hi, ha]; rfl
      · intro g hg'
        rcases List.mem_cons.1 hg' with rfl | h
        · exact ⟨s, e, h1, h2⟩
        · exact hg g h
  refine gen _ fun y hy => ?_
  obtain ⟨h1, h2⟩ := List.mem_filter.1 hy
  obtain ⟨i, hem, s, e, h⟩ := hw y h1 ((relevant_iff bound hb y).1 h2)
  exact ⟨_, s, e, entry_says h, rfl, rfl⟩

/-- C78 is false for the instrument of the stray file: among files that follow the convention, one file of a further
instrument with a date that does not parse makes every request for that instrument and hemisphere that names two times
fail with KeyError. -/
theorem C78_instrument_refuted (c : Cal) {bound : Name} (hb : bound.length = 3) (pre post : List (Name × Bool))
    (hw : WellNamed c bound pre) (hw' : WellNamed c bound post) (x : Name × Bool) (hx : IsBoundary bound x)
    (inst h d1 d2 : Name) (rest : List Name) (ext : Name) (hparts : ∀ p ∈ inst :: h :: d1 :: d2 :: rest, '_' ∉ p)
    (hn : lower x.1 = joined (inst :: h :: d1 :: d2 :: rest) ++ '.' :: ext) (hext : ext.length = 3) (hem : ℤ)
    (hh : h = "north".toList ∧ hem = 1 ∨ h = "south".toList ∧ hem = -1) (hi : ∀ y ∈ coverage c, y.1 ≠ inst)
    (hd : c.parse d1 = none ∨ c.parse d2 = none) (instrument : Name) (ha : Accepts instrument inst) (st et : ℤ) :
    getDefault c (pre ++ x :: post) (some st) (some et) hem instrument bound = .error .keyError := by
  have hs : split (cut4 (lower x.1)) = inst :: h :: d1 :: d2 :: rest := by
    rw [hn, cut4_append _ _ (by simp [hext]), split_joined _ (by simp) hparts]
  have hemi' : hemi h = .ok hem := by rcases hh with ⟨rfl, rfl⟩ | ⟨rfl, rfl⟩ <;> rfl
  obtain ⟨i, he, i1, i2, i3⟩ : ∃ i, entry c x.1 = .ok i ∧ i.inst = inst ∧ i.hem = hem ∧ i.etime = none := by
    unfold entry
    simp only [hs, part, List.getElem?_cons_zero, List.getElem?_cons_succ, bind, Except.bind, hemi', pure, Except.pure]
    rw [known_none hi]
    simp only
    cases h1 : c.parse d1 with
    | none => exact ⟨_, rfl, rfl, rfl, rfl⟩
    | some s =>
      simp only
      rw [hd.resolve_left (by simp [h1])]
      exact ⟨_, rfl, rfl, rfl, rfl⟩
  have hf : fits i (accept instrument) hem (some st) (some et) = .error .keyError := by
    unfold fits
    rw [if_pos ⟨i2, by rw [i1, accept_iff]; exact ha⟩]
    simp only [i3]
  obtain ⟨a, a1, a2⟩ := entries_named hb hw
  obtain ⟨b, b1, -⟩ := entries_named hb hw'
  have hl : boundaryFiles c bound (pre ++ x :: post) = .ok (a ++ (x.1, i) :: b) := by
    unfold boundaryFiles
    rw [List.filter_append, List.filter_cons, if_pos ((relevant_iff bound hb x).2 hx), mapE_append, a1]
    simp only [Except.bind, Ocb.mapE]
    rw [he, b1]
    rfl
  unfold getDefault
  rw [hl]
  simp only [Except.bind]
  rw [goodFiles_stop _ _ _ _ _ _ _ .keyError ?_ hf]
  intro g hg
  obtain ⟨s, e, g1, g2⟩ := a2 g hg
  unfold fits
  rw [g1, g2]
  simp only
  split_ifs <;> exact ⟨_, rfl⟩

/-- For instance `mine_north_today_now.ocb`. -/
example : IsBoundary "ocb".toList ("mine_north_today_now.ocb".toList, true) ∧
    lower "mine_north_today_now.ocb".toList =
      joined ["mine".toList, "north".toList, "today".toList, "now".toList] ++ '.' :: "ocb".toList ∧
    Accepts "mine".toList "mine".toList ∧ ∀ c : Cal, ∀ y ∈ coverage c, y.1 ≠ "mine".toList := by
  refine ⟨(relevant_iff _ (by decide) _).1 (by decide), by decide, .inr (.inr (.inr ⟨by decide, by decide, rfl⟩)), ?_⟩
  intro c y hy
  simp only [coverage, List.mem_cons, List.not_mem_nil, or_false] at hy
  rcases hy with rfl | rfl | rfl | rfl | rfl | rfl <;> (simp only [ne_eq]; decide)

/-! ## C79: instrument and time -/

/-- C79 is false: an AMPERE file is in the listing and AMPERE is asked for by name, but no file is returned for times
before 2010, although the documentation says that naming an instrument overrides the times. -/
theorem C79_override_refuted (c : Cal) {bound : Name} (hb : bound.length = 3) {listing : List (Name × Bool)}
    (hw : WellNamed c bound listing) (n : Name) (hn : (n, true) ∈ listing) (hbn : IsBoundary bound (n, true)) (hem : ℤ)
    (_hs : Says c n "amp".toList hem (c.date 2010 1 1) (c.date 2022 1 1)) (a b : ℤ) (hab : b < c.date 2010 1 1) :
    getDefault c listing (some a) (some b) hem "ampere".toList bound = .ok (none, "ampere".toList) ∧
    ∃ n' out, getDefault c listing none none hem "ampere".toList bound = .ok (some n', out) := by
  constructor
  · rcases C53_default_file hb hw (some a) (some b) hem "ampere".toList (.inr (.inl rfl)) with
      ⟨m, inst, out, -, ⟨s, e, -, -, h3, h4, h5⟩, -⟩ | h
    · exfalso
      have hi : inst = "amp".toList := by
        rcases h4 with ⟨h, -⟩ | ⟨-, h⟩ | ⟨h, -⟩ | ⟨-, h, -⟩
        · exact absurd h (by decide)
        · exact h
        · exact absurd h (by decide)
        · exact absurd rfl h
      subst hi
      obtain ⟨h', rest, ext, -, -, -, -, h7⟩ := h3.parts
      have hs' : s = c.date 2010 1 1 := by
        rcases h7 with h7 | ⟨h7, -⟩
        · have := known_of h7
          have : some (c.date 2010 1 1, c.date 2022 1 1) = some (s, e) := this
          exact (Prod.ext_iff.1 (Option.some.inj this)).1.symm
        · exact absurd rfl (h7 ("amp".toList, c.date 2010 1 1, c.date 2022 1 1) (by simp [coverage]))
      have := (h5 a b rfl rfl).2
      omega
    · exact h.1
  · rcases C53_default_file hb hw none none hem "ampere".toList (.inr (.inl rfl)) with ⟨m, inst, out, h, -⟩ | ⟨-, h⟩
    · exact ⟨m, out, h⟩
    · exact absurd ⟨_, _, hn, hbn, _hs, .inr (.inl ⟨rfl, rfl⟩), by simp⟩ (h n "amp".toList)

end Ocb.Files
