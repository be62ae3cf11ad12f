import Verif.Props.DualInit

/-!
# Properties of the texts of `DualBoundary`: C136
-/

set_option autoImplicit false

namespace Ocb.Init

open Ocb.Files (Name lower)
open Ocb.Coord (FnArg InWindow)
open Ocb.Cycle (Bnd Pairs Sel At)

variable {Fn Kw : Type}

/-- An `EABoundary`, perhaps with its cursor moved -/
def IsEab (W : World Fn Kw) (e : Obj Fn Kw) : Prop := ∃ A e0 r, eabInit W A = .ok e0 ∧ e = { e0 with recInd := r }

/-- An `OCBoundary`, perhaps with its cursor moved -/
def IsOcb (W : World Fn Kw) (o : Obj Fn Kw) : Prop := ∃ A o0 r, ocbInit W A = .ok o0 ∧ o = { o0 with recInd := r }

theorem isEab_held {W : World Fn Kw} {e : Obj Fn Kw} (h : IsEab W e) : Held e := by
  obtain ⟨A, e0, r, h1, rfl⟩ := h
  exact fun t ht => held_eab h1 t ht

theorem isOcb_held {W : World Fn Kw} {o : Obj Fn Kw} (h : IsOcb W o) : Held o := by
  obtain ⟨A, o0, r, h1, rfl⟩ := h
  exact fun t ht => held_ocb h1 t ht

/-- The members of a constructed object, if those that are given were constructed. -/
theorem members_made {W : World Fn Kw} {view : View} {D : DualArgs Fn Kw} {d : DualObj Fn Kw} (h : dualNew W view D = .ok d)
    (he : ∀ e, D.eab = some e → IsEab W e) (ho : ∀ o, D.ocb = some o → IsOcb W o) :
    (∃ A e, eabInit W A = .ok e ∧ d.eab = { e with recInd := d.eab.recInd }) ∧
      ∃ A o, ocbInit W A = .ok o ∧ d.ocb = { o with recInd := d.ocb.recInd } := by
  obtain ⟨e, o, h1, h2, h3, h4, -⟩ := C135_members h
  constructor
  · rcases h1 with h1 | ⟨-, h1⟩
    · obtain ⟨A, e0, r, h5, h6⟩ := he e h1
      refine ⟨A, e0, h5, ?_⟩
      rw [h6] at h3
      exact h3
    · exact ⟨_, e, h1, h3⟩
  · rcases h2 with h2 | ⟨-, h2⟩
    · obtain ⟨A, o0, r, h5, h6⟩ := ho o h2
      refine ⟨A, o0, h5, ?_⟩
      rw [h6] at h4
      exact h4
    · exact ⟨_, o, h2, h4⟩

/-! ### `__repr__` -/

/-- Pairing does not depend on the cursors and latitudes of the members, or on what was paired before. -/
theorem setGood_same {view : View} (so se : Sel) {e e' o o' : Obj Fn Kw} {hem m : ℤ} {x y : ℝ} {r s : ℤ}
    (he : e' = { e with lat := x, recInd := r }) (ho : o' = { o with lat := y, recInd := s }) {d : DualObj Fn Kw}
    (ht : o.dtime ≠ none) (ht' : e.dtime ≠ none) (h : setGood view so se ⟨e, o, hem, m, 0, none, none⟩ = .ok d) :
    setGood view so se ⟨e', o', hem, m, 0, none, none⟩ =
      .ok { d with eab := { d.eab with lat := x }, ocb := { d.ocb with lat := y } } := by
  obtain ⟨tO, hO⟩ := Option.ne_none_iff_exists'.1 ht
  obtain ⟨te, hE⟩ := Option.ne_none_iff_exists'.1 ht'
  subst he
  subst ho
  unfold setGood at h ⊢
  simp only [hO, hE, bind, Except.bind, pure, Except.pure] at h ⊢
  split at h
  · cases h
  · next p hp =>
    split at h
    · cases h
    · next c hc =>
      cases h
      simp only [seen] at hp ⊢
      rw [hp]
      simp only [hc]

/-- C136 as far as it holds: with records in the order of time in both files, the text, taken after any cycling and any
pairing, evaluates to the object as it was constructed: same members, time difference, pairs and cursors; the latitudes are
rounded to six places.  Missing: the criteria of a later `set_good_ind` (`C136_selection_refuted`), and everything that C124 misses. -/
theorem C136_roundtrip_partial {W : World Fn Kw} {view : View} {D : DualArgs Fn Kw} {d : DualObj Fn Kw}
    (h : dualNew W view D = .ok d) (he : ∀ e, D.eab = some e → IsEab W e) (ho : ∀ o, D.ocb = some o → IsOcb W o)
    {name : Fn → Name} {text : Kw → Name} (hn : Function.Injective name) (ht : Function.Injective text) {f g : Name}
    (hf : d.eab.filename = some f) (hg : d.ocb.filename = some g) {te tO : List ℤ} (h1 : d.eab.dtime = some te)
    (h2 : d.ocb.dtime = some tO) (hne : te ≠ []) (hno : tO ≠ []) (hse : te.Pairwise (· ≤ ·)) (hso : tO.Pairwise (· ≤ ·))
    (r s : ℤ) (n : ℤ) (p : Option Pairs) (c : Option ℤ) :
    ∃ R d', reprDual name text { d with eab := { d.eab with recInd := r }, ocb := { d.ocb with recInd := s },
                                        records := n, pairs := p, cursor := c } = .ok R ∧
      evalDual W view R = .ok d' ∧ SameObj d.eab d'.eab ∧ SameObj d.ocb d'.ocb ∧ d'.hem = d.hem ∧
      d'.maxDelta = d.maxDelta ∧ d'.records = d.records ∧ d'.pairs = d.pairs ∧ d'.cursor = d.cursor := by
  obtain ⟨⟨A, e, a1, a2⟩, B, o, b1, b2⟩ := members_made h he ho
  have e1 : e.filename = some f := by rw [a2] at hf; exact hf
  have e2 : e.dtime = some te := by rw [a2] at h1; exact h1
  have o1 : o.filename = some g := by rw [b2] at hg; exact hg
  have o2 : o.dtime = some tO := by rw [b2] at h2; exact h2
  obtain ⟨A', e', r1, r2, x, r3, r4⟩ := C124_eab_partial a1 e1 r hn ht e2 hne hse
  obtain ⟨B', o', q1, q2, y, q3, q4⟩ := C124_roundtrip_partial b1 o1 s hn ht o2 hno hso
  obtain ⟨h0, e0, o0, -, -, k3, k4⟩ := dualNew_inv h
  have k5 := setGood_keeps k4
  have ke : d.eab = { e0 with recInd := d.eab.recInd } := congrArg DualObj.eab k5
  have ko : d.ocb = { o0 with recInd := d.ocb.recInd } := congrArg DualObj.ocb k5
  have km : d.maxDelta = D.maxDelta := congrArg DualObj.maxDelta k5
  have kh : d.hem = o0.hem := congrArg DualObj.hem k5
  have he' : e' = { e0 with lat := x, recInd := e.recInd } := by
    rw [r3]
    have : { d.eab with recInd := e.recInd } = e := by rw [a2]
    rw [← this, ke]
  have ho' : o' = { o0 with lat := y, recInd := o.recInd } := by
    rw [q3]
    have : { d.ocb with recInd := o.recInd } = o := by rw [b2]
    rw [← this, ko]
  have hnew := setGood_same noSel noSel (hem := o0.hem) (m := D.maxDelta) he' ho'
    (by rw [ko] at h2; rw [show o0.dtime = some tO from h2]; simp)
    (by rw [ke] at h1; rw [show e0.dtime = some te from h1]; simp) k4
  have le : d.eab.lat = e.lat := by rw [a2]
  have lo : d.ocb.lat = o.lat := by rw [b2]
  refine ⟨(A', B', d.maxDelta), { d with eab := { d.eab with lat := x }, ocb := { d.ocb with lat := y } }, ?_, ?_,
    ⟨x, rfl, by rw [le]; exact r4.1, by rw [le]; exact r4.2⟩, ⟨y, rfl, by rw [lo]; exact q4.1, by rw [lo]; exact q4.2⟩,
    rfl, rfl, rfl, rfl, rfl⟩
  · unfold reprDual
    have s1 : ({ d.eab with recInd := r } : Obj Fn Kw) = { e with recInd := r } := by rw [a2]
    have s2 : ({ d.ocb with recInd := s } : Obj Fn Kw) = { o with recInd := s } := by rw [b2]
    simp only [s1, s2, r1, q1, bind, Except.bind, pure, Except.pure]
  · unfold evalDual
    simp only [r2, q2, bind, Except.bind]
    unfold dualNew
    have hl : ¬ |(74 : ℝ)| ≤ |(64 : ℝ)| := by norm_num
    have hhem : o'.hem = e'.hem := by rw [he', ho']; exact k3
    simp only [members, bind, Except.bind, pure, Except.pure]
    rw [if_neg hl, if_neg (by omega), if_neg (by rw [hhem]; simp)]
    have : o'.hem = o0.hem := by rw [ho']
    rw [this]
    rw [← km] at hnew
    exact hnew

/-- C136 is false after `set_good_ind` with criteria that change the pairs: the text evaluates to an object with other
pairs. -/
theorem C136_selection_refuted {W : World Fn Kw} {view : View} {D : DualArgs Fn Kw} {d : DualObj Fn Kw}
    (h : dualNew W view D = .ok d) (he : ∀ e, D.eab = some e → IsEab W e) (ho : ∀ o, D.ocb = some o → IsOcb W o)
    {name : Fn → Name} {text : Kw → Name} (hn : Function.Injective name) (ht : Function.Injective text) {f g : Name}
    (hf : d.eab.filename = some f) (hg : d.ocb.filename = some g) {te tO : List ℤ} (h1 : d.eab.dtime = some te)
    (h2 : d.ocb.dtime = some tO) (hne : te ≠ []) (hno : tO ≠ []) (hse : te.Pairwise (· ≤ ·)) (hso : tO.Pairwise (· ≤ ·))
    {so se : Sel} {d2 : DualObj Fn Kw} (hs : setGood view so se d = .ok d2) (hdiff : d2.pairs ≠ d.pairs) :
    ∃ R d', reprDual name text d2 = .ok R ∧ evalDual W view R = .ok d' ∧ d'.pairs ≠ d2.pairs := by
  have k := setGood_keeps hs
  obtain ⟨R, d', e1, e2, -, -, -, -, -, e3, -⟩ := C136_roundtrip_partial h he ho hn ht hf hg h1 h2 hne hno hse hso
    d2.eab.recInd d2.ocb.recInd d2.records d2.pairs d2.cursor
  refine ⟨R, d', ?_, e2, by rw [e3]; exact Ne.symm hdiff⟩
  rw [k]
  exact e1

/-- C136 is false for an object whose EAB has no file and was made without a correction: the text cannot be written. -/
theorem C136_no_file_refuted {W : World Fn Kw} {view : View} {D : DualArgs Fn Kw} {d : DualObj Fn Kw}
    (h : dualNew W view D = .ok d) (hb : D.eab = none) (hr : D.eabRfunc = .dflt) {i : Name} (hi : D.eabInst = .text i)
    (hf : d.eab.filename = none) (name : Fn → Name) (text : Kw → Name) : reprDual name text d = .error .typeError := by
  obtain ⟨e, o, h1, -, h3, -⟩ := C135_members h
  rcases h1 with h1 | ⟨-, h1⟩
  · rw [hb] at h1; cases h1
  · have hfe : e.filename = none := by rw [h3] at hf; exact hf
    have hr2 := C124_eab_refuted h1 hfe hr hi name text
    have hx : reprArgs name text d.eab = .error .typeError := by
      rw [h3]
      exact hr2
    unfold reprDual
    simp only [hx, bind, Except.bind]

/-! ### `__str__` -/

/-- The first and the last element by index -/
theorem ends_idx {l : List ℤ} {a b : ℤ} (ha : l.head? = some a) (hb : l.getLast? = some b) :
    Ocb.pyIdx l 0 = .ok a ∧ Ocb.pyIdx l (-1) = .ok b := by
  have hne : l ≠ [] := by rintro rfl; cases ha
  have hpos := List.length_pos_iff.2 hne
  constructor
  · rw [List.head?_eq_getElem?] at ha
    simp [Ocb.pyIdx, Ocb.pyGet, ha]
  · rw [List.getLast?_eq_getElem?] at hb
    have hx : (-1 + (l.length : ℤ)).toNat = l.length - 1 := by omega
    unfold Ocb.pyIdx Ocb.pyGet
    rw [if_neg (by omega), if_pos (by omega), hx, hb]

/-- C136: the text for people can always be written.  It shows the number of pairs, the times of the first and the last
pair if there are pairs, the time difference, and the texts of both members. -/
theorem C136_shows {W : World Fn Kw} {view : View} (hv : Sees view) {D : DualArgs Fn Kw} {d : DualObj Fn Kw}
    (h : dualNew W view D = .ok d) (he : ∀ e, D.eab = some e → IsEab W e) (ho : ∀ o, D.ocb = some o → IsOcb W o)
    (mod short : Fn → Name) (text : Kw → Name) :
    ∃ t e o, strDual mod short text d = .ok t ∧ t.records = d.records ∧ t.maxDelta = D.maxDelta ∧
      d.eab = { e with recInd := d.eab.recInd } ∧ Shows mod short text e t.eab ∧
      d.ocb = { o with recInd := d.ocb.recInd } ∧ Shows mod short text o t.ocb ∧
      (d.records = 0 → t.span = none) ∧
      (d.records ≠ 0 → ∃ p a b, d.pairs = some p ∧ p.dtime.head? = some a ∧ p.dtime.getLast? = some b ∧ t.span = some (a, b)) := by
  obtain ⟨⟨A, e, a1, a2⟩, B, o, b1, b2⟩ := members_made h he ho
  obtain ⟨le, e1, e2⟩ := C134_eab a1 d.eab.recInd mod short text
  obtain ⟨lo, o1, o2⟩ := C134_shows b1 d.ocb.recInd mod short text
  rw [← a2] at e1
  rw [← b2] at o1
  have km : d.maxDelta = D.maxDelta := by
    obtain ⟨-, -, -, -, -, -, -, -, k⟩ := C135_members h
    exact k
  by_cases hz : d.records = 0
  · refine ⟨⟨d.records, none, d.maxDelta, le, lo⟩, e, o, ?_, rfl, km, a2, e2, b2, o2, fun _ => rfl, fun h => absurd hz h⟩
    unfold strDual pairSpan
    rw [if_pos hz]
    simp only [e1, o1, bind, Except.bind, pure, Except.pure]
  · have hd1 : d.ocb.dtime ≠ none := fun hc => hz (C135_no_data h (.inl hc)).1
    have hd2 : d.eab.dtime ≠ none := fun hc => hz (C135_no_data h (.inr hc)).1
    obtain ⟨p, tO, te, hp, -, -, hr, -⟩ := C135_pairs hv h (fun e h => isEab_held (he e h)) (fun o h => isOcb_held (ho o h)) hd1 hd2
    have hne : p.dtime ≠ [] := by rintro hc; rw [hc] at hr; exact hz (by simpa using hr)
    obtain ⟨a, b, ha, hb⟩ := ends_of hne
    obtain ⟨i1, i2⟩ := ends_idx ha hb
    refine ⟨⟨d.records, some (a, b), d.maxDelta, le, lo⟩, e, o, ?_, rfl, km, a2, e2, b2, o2, fun h => absurd h hz,
      fun _ => ⟨p, a, b, hp, ha, hb, rfl⟩⟩
    unfold strDual pairSpan
    rw [if_neg hz, hp]
    simp only [i1, i2, e1, o1, bind, Except.bind, pure, Except.pure]

/-! ### Examples -/

/-- All records have the figure of merit 1, and those above 0 are good. -/
def demoView : View := fun times rows _ _ => ⟨times, rows.map fun _ => .fin 1, [], .fin 0, .pinf⟩

theorem demoView_sees : Sees demoView := by
  intro times rows a b h
  refine ⟨rfl, by simp [demoView, h], ?_⟩
  intro k vals hk
  simp [demoView, Bnd.attr] at hk

/-- Both boundaries from the AMPERE file -/
def demoDual : DualArgs Bool ℕ :=
  ⟨.text "a.ocb".toList, .text "a.ocb".toList, .text "AMPERE".toList, .text "AMPERE".toList, 1, 64, 74, none, none, .one true,
    .dflt, .dflt, .dflt, none, none, 60⟩

/-- The hypotheses of C135 and C136 are met: the object has pairs. -/
theorem demo_dual : ∃ d, dualNew (demoWorld [(0, 2), (0, 4), (23, 58)]) demoView demoDual = .ok d ∧
    d.eab.filename = some "a.ocb".toList ∧ d.ocb.filename = some "a.ocb".toList ∧
    d.eab.dtime = some [demoTime (0, 2), demoTime (0, 4), demoTime (23, 58)] ∧
    d.ocb.dtime = some [demoTime (0, 2), demoTime (0, 4), demoTime (23, 58)] ∧ d.records ≠ 0 := by
  obtain ⟨o, o1, o2, -, o3, -⟩ := demo_loads [(0, 2), (0, 4), (23, 58)] (by decide) (by decide) none none
  obtain ⟨e, e1, e2, -, e3, -⟩ := demo_loads [(0, 2), (0, 4), (23, 58)] (by decide) (by decide) none none 64 (.one true) (.inr rfl)
  have o3' : o.dtime = some [demoTime (0, 2), demoTime (0, 4), demoTime (23, 58)] := by rw [o3]; simp [InWindow]
  have e3' : e.dtime = some [demoTime (0, 2), demoTime (0, 4), demoTime (23, 58)] := by rw [e3]; simp [InWindow]
  have e1' : eabInit (demoWorld [(0, 2), (0, 4), (23, 58)]) ⟨.text "a.ocb".toList, .text "AMPERE".toList, 1, some 64, none, none,
      .one true, .dflt⟩ = .ok e := by
    rw [C123_as_ocb _ _ (by simp) (by intro f hf; cases hf; decide)]
    exact e1
  have he : EabOf (demoWorld [(0, 2), (0, 4), (23, 58)]) demoDual e := .inr ⟨rfl, e1'⟩
  have ho : OcbOf (demoWorld [(0, 2), (0, 4), (23, 58)]) demoDual o := .inr ⟨rfl, o1⟩
  have hem : o.hem = e.hem := by
    rw [(C34_constructor o1).2.1, (C34_constructor e1).2.1]
  obtain ⟨d, hd⟩ := (C135_accepted _ demoView_sees demoDual (by simp [demoDual]) (by simp [demoDual])).2
    ⟨by simp [demoDual]; norm_num, by simp [demoDual], e, o, he, ho, hem⟩
  have hm := (members_iff _ _ e o).2 ⟨he, ho⟩
  obtain ⟨-, e', o', k1, k2, k3, k4⟩ := dualNew_inv hd
  have hm' := (members_iff _ _ e' o').2 ⟨k1, k2⟩
  rw [hm] at hm'
  cases hm'
  have k := setGood_keeps k4
  have ke := congrArg DualObj.eab k
  have ko := congrArg DualObj.ocb k
  obtain ⟨p, c, hp, hc, -, -, hs⟩ := setGood_loaded demoView_sees noSel noSel
    (d := ⟨e, o, o.hem, demoDual.maxDelta, 0, none, none⟩) (by simp [demoDual]) (held_ocb o1) (held_eab e1') o3' e3'
  rw [k4] at hs
  refine ⟨d, hd, by rw [ke]; exact e2, by rw [ko]; exact o2, by rw [ke]; exact e3', by rw [ko]; exact o3', ?_⟩
  cases hs
  have hlen : o.rows.length = 3 := by
    obtain ⟨q1, q2⟩ := held_ocb o1 _ o3'
    rw [q2, ← q1]; rfl
  have hlen' : e.rows.length = 3 := by
    obtain ⟨q1, q2⟩ := held_eab e1' _ e3'
    rw [q2, ← q1]; rfl
  have v1 : seen demoView o [demoTime (0, 2), demoTime (0, 4), demoTime (23, 58)] =
      ⟨[demoTime (0, 2), demoTime (0, 4), demoTime (23, 58)], [.fin 1, .fin 1, .fin 1], [], .fin 0, .pinf⟩ := by
    unfold seen demoView
    rw [List.map_const', hlen]; rfl
  have v2 : seen demoView e [demoTime (0, 2), demoTime (0, 4), demoTime (23, 58)] =
      ⟨[demoTime (0, 2), demoTime (0, 4), demoTime (23, 58)], [.fin 1, .fin 1, .fin 1], [], .fin 0, .pinf⟩ := by
    unfold seen demoView
    rw [List.map_const', hlen']; rfl
  simp only [v1, v2] at hp
  have hw : (⟨[demoTime (0, 2), demoTime (0, 4), demoTime (23, 58)], [.fin 1, .fin 1, .fin 1], [], .fin 0, .pinf⟩ : Bnd).WF :=
    ⟨rfl, by intro k vals hk; simp [Bnd.attr] at hk⟩
  have hnd : ∀ q : ℤ → Prop, Ocb.Cycle.NondecOn [demoTime (0, 2), demoTime (0, 4), demoTime (23, 58)] q := by
    intro q a b s t hab _ _ ha hb
    obtain ⟨a0, a1, rfl⟩ := Ocb.Cycle.at_eq ha
    obtain ⟨b0, b1, rfl⟩ := Ocb.Cycle.at_eq hb
    have := Ocb.Cycle.pairwise_tm (l := [demoTime (0, 2), demoTime (0, 4), demoTime (23, 58)]) (by simp [demoTime])
      a.toNat b.toNat (by omega) (by omega)
    rwa [Int.toNat_of_nonneg a0, Int.toNat_of_nonneg b0] at this
  obtain ⟨p', hp', hq⟩ := Ocb.Cycle.C21_pair_exists_iff _ _ hw hw noSel noSel 60000000 (by decide) (hnd _) (hnd _)
  have hsame : demoDual.maxDelta * 1000000 = 60000000 := by simp [demoDual]
  rw [hsame, hp'] at hp
  cases hp
  have hg : noSel.good ⟨[demoTime (0, 2), demoTime (0, 4), demoTime (23, 58)], [.fin 1, .fin 1, .fin 1], [], .fin 0, .pinf⟩ 0 :=
    ⟨⟨.fin 1, rfl, by decide, by decide⟩, by simp [noSel]⟩
  have := hq.2 ⟨0, 0, _, _, hg, hg, ⟨le_rfl, rfl⟩, ⟨le_rfl, rfl⟩, by simp⟩
  exact ne_of_gt this

/-- The round trip of that object -/
example (name : Bool → Name) (text : ℕ → Name) (hn : Function.Injective name) (ht : Function.Injective text) :
    ∃ d R d', dualNew (demoWorld [(0, 2), (0, 4), (23, 58)]) demoView demoDual = .ok d ∧ reprDual name text d = .ok R ∧
      evalDual (demoWorld [(0, 2), (0, 4), (23, 58)]) demoView R = .ok d' ∧ d'.pairs = d.pairs ∧ d.records ≠ 0 := by
  obtain ⟨d, h, h1, h2, h3, h4, h5⟩ := demo_dual
  obtain ⟨R, d', e1, e2, -, -, -, -, -, e3, -⟩ := C136_roundtrip_partial h (by simp [demoDual]) (by simp [demoDual]) hn ht h1 h2 h3
    h4 (by simp) (by simp) (by simp [demoTime]) (by simp [demoTime]) d.eab.recInd d.ocb.recInd d.records d.pairs d.cursor
  exact ⟨d, R, d', h, e1, e2, e3, h5⟩

/-- A pairing that asks for a figure of merit above 2 leaves no pairs; the text does not tell. -/
example (name : Bool → Name) (text : ℕ → Name) (hn : Function.Injective name) (ht : Function.Injective text) :
    ∃ d d2 R d', dualNew (demoWorld [(0, 2), (0, 4), (23, 58)]) demoView demoDual = .ok d ∧
      setGood demoView ⟨some (.fin 2), none, []⟩ noSel d = .ok d2 ∧ reprDual name text d2 = .ok R ∧
      evalDual (demoWorld [(0, 2), (0, 4), (23, 58)]) demoView R = .ok d' ∧ d'.pairs ≠ d2.pairs := by
  obtain ⟨d, h, h1, h2, h3, h4, h5⟩ := demo_dual
  obtain ⟨e, o, k1, k2, k3, k4, -, -, k5⟩ := C135_members h
  have he : Held d.eab := by
    rcases k1 with k1 | ⟨-, k1⟩
    · cases k1
    · rw [k3]; exact fun t ht => held_eab k1 t ht
  have ho : Held d.ocb := by
    rcases k2 with k2 | ⟨-, k2⟩
    · cases k2
    · rw [k4]; exact fun t ht => held_ocb k2 t ht
  obtain ⟨p, c, hp, hc, l1, l2, hs⟩ := setGood_loaded demoView_sees ⟨some (.fin 2), none, []⟩ noSel (d := d)
    (by rw [k5]; simp [demoDual]) ho he h4 h3
  have hnil : p.dtime = [] := by
    obtain ⟨q1, q2⟩ := ho _ h4
    obtain ⟨q3, q4⟩ := he _ h3
    obtain ⟨-, w1⟩ := demoView_sees _ d.ocb.rows d.ocb.minFom d.ocb.maxFom (q1.trans q2.symm)
    obtain ⟨-, w2⟩ := demoView_sees _ d.eab.rows d.eab.minFom d.eab.maxFom (q3.trans q4.symm)
    obtain ⟨p', hp', -, -, hall⟩ := Ocb.Cycle.C19_pairs_valid (seen demoView d.ocb _) (seen demoView d.eab _) w1 w2
      ⟨some (.fin 2), none, []⟩ noSel (d.maxDelta * 1000000) (by rw [k5]; simp [demoDual])
    rw [hp] at hp'
    cases hp'
    by_contra hne
    have hpos := List.length_pos_iff.2 hne
    obtain ⟨⟨⟨x, hx, hx1, -⟩, -⟩, -⟩ := hall 0 _ _ (List.getElem?_eq_getElem (by omega)) (List.getElem?_eq_getElem (by omega))
    have hmem := List.mem_of_getElem? hx
    unfold seen demoView at hmem
    obtain ⟨-, -, rfl⟩ := List.mem_map.1 hmem
    exact absurd (show Ocb.Fl.le (.fin 2) (.fin 1) = true from hx1) (by decide)
  obtain ⟨R, d', e1, e2, e3⟩ := C136_selection_refuted h (by simp [demoDual]) (by simp [demoDual]) hn ht h1 h2 h3
    h4 (by simp) (by simp) (by simp [demoTime]) (by simp [demoTime]) hs (by
      obtain ⟨p0, -, -, a1, -, -, a2, -⟩ := C135_pairs demoView_sees h (by simp [demoDual]) (by simp [demoDual]) (by simp [h4])
        (by simp [h3])
      rw [a1]
      intro hc
      cases hc
      rw [hnil] at a2
      exact h5 (by simpa using a2))
  exact ⟨d, _, R, d', h, hs, e1, e2, e3⟩

/-- The text for people of that object -/
example (mod short : Bool → Name) (text : ℕ → Name) : ∃ d t a b,
    dualNew (demoWorld [(0, 2), (0, 4), (23, 58)]) demoView demoDual = .ok d ∧ strDual mod short text d = .ok t ∧
    t.span = some (a, b) := by
  obtain ⟨d, h, -, -, -, -, h5⟩ := demo_dual
  obtain ⟨t, -, -, h1, -, -, -, -, -, -, -, h2⟩ := C136_shows demoView_sees h (by simp [demoDual]) (by simp [demoDual]) mod short text
  obtain ⟨p, a, b, -, -, -, h3⟩ := h2 h5
  exact ⟨d, t, a, b, h, h1, h3⟩

/-- Without files: the object is made, and has no cursor. -/
example : ∃ d, dualNew (demoWorld []) demoView { demoDual with eabFile := .none, ocbFile := .none } = .ok d ∧
    d.noPair = .error .attributeError := by
  obtain ⟨o, h1, h2⟩ := C126_no_data (demoWorld []) ⟨.none, .text "AMPERE".toList, 1, some 74, none, none, .dflt, .dflt⟩
    (.inl rfl) (by simp) (.inr (.inl fun f => by simp))
  obtain ⟨e, h3, h4⟩ := C126_no_data (demoWorld []) ⟨.none, .text "AMPERE".toList, 1, some 64, none, none, .one true, .dflt⟩
    (.inl rfl) (by simp) (.inr (.inl fun f => by simp))
  have h3' : eabInit (demoWorld []) ⟨.none, .text "AMPERE".toList, 1, some 64, none, none, .one true, .dflt⟩ = .ok e := by
    rw [C123_as_ocb _ _ (by simp) (by simp)]
    exact h3
  have hem : o.hem = e.hem := by rw [(C34_constructor h1).2.1, (C34_constructor h3).2.1]
  obtain ⟨d, hd⟩ := (C135_accepted (demoWorld []) demoView_sees { demoDual with eabFile := .none, ocbFile := .none }
    (by simp [demoDual]) (by simp [demoDual])).2 ⟨by simp [demoDual]; norm_num, by simp [demoDual], e, o, .inr ⟨rfl, h3'⟩,
      .inr ⟨rfl, h1⟩, hem⟩
  obtain ⟨e', o', -, k2, -, k4, -⟩ := C135_members hd
  refine ⟨d, hd, (C135_no_data_refuted hd (.inl ?_)).2⟩
  rcases k2 with k2 | ⟨-, k2⟩
  · cases k2
  · have : o' = o := by
      have := h1.symm.trans k2
      cases this
      rfl
    rw [k4, this]
    exact h2.2.2.2.1

/-- An OCB on its second record is past its end after it was given to a `DualBoundary` with an EAB of another day. -/
example (W : World Bool ℕ) : ∃ (o e : Obj Bool ℕ) (d : DualObj Bool ℕ),
    dualNew W demoView { demoDual with ocb := some o, eab := some e } = .ok d ∧ o.recInd = 1 ∧ d.ocb.recInd = 2 ∧ o.records = 2 := by
  have ho : Held (⟨none, none, 1, 74, 2, 1, some [0, 1000000], [[], []], none, none, .dflt, .dflt⟩ : Obj Bool ℕ) := by
    intro t ht; cases ht; exact ⟨rfl, rfl⟩
  have he : Held (⟨none, none, 1, 64, 1, 0, some [86400000000], [[]], none, none, .dflt, .dflt⟩ : Obj Bool ℕ) := by
    intro t ht; cases ht; exact ⟨rfl, rfl⟩
  obtain ⟨d, hd⟩ := (C135_accepted W demoView_sees { demoDual with
      ocb := some ⟨none, none, 1, 74, 2, 1, some [0, 1000000], [[], []], none, none, .dflt, .dflt⟩
      eab := some ⟨none, none, 1, 64, 1, 0, some [86400000000], [[]], none, none, .dflt, .dflt⟩ }
    (by intro e h; cases h; exact he) (by intro o h; cases h; exact ho)).2
    ⟨by simp [demoDual]; norm_num, by simp [demoDual], _, _, .inl rfl, .inl rfl, rfl⟩
  obtain ⟨e', o', k1, k2, k3, k4, -⟩ := C135_members hd
  have hO : d.ocb.dtime = some [0, 1000000] := by
    rcases k2 with k2 | ⟨k2, -⟩
    · cases k2; rw [k4]
    · cases k2
  have hE : d.eab.dtime = some [86400000000] := by
    rcases k1 with k1 | ⟨k1, -⟩
    · cases k1; rw [k3]
    · cases k1
  have key := (C135_given_refuted demoView_sees hd (by intro e h; cases h; exact he) rfl ho hO hE (by
    intro a ha b hb
    simp only [List.mem_cons, List.not_mem_nil, or_false] at ha hb
    rcases ha with rfl | rfl <;> subst hb <;> simp [demoDual] <;> norm_num) (by decide)).1
  exact ⟨_, _, d, hd, rfl, by rw [key]; rfl, rfl⟩

/-- The default construction without any files: no text -/
example (name : Bool → Name) (text : ℕ → Name) : ∃ d, dualNew (demoWorld []) demoView
      { demoDual with eabFile := .none, ocbFile := .none, eabRfunc := .dflt, eabInst := .text [] } = .ok d ∧
    reprDual name text d = .error .typeError := by
  obtain ⟨o, h1, h2⟩ := C126_no_data (demoWorld []) ⟨.none, .text "AMPERE".toList, 1, some 74, none, none, .dflt, .dflt⟩
    (.inl rfl) (by simp) (.inr (.inl fun f => by simp))
  obtain ⟨e, h3, h4⟩ := C126_no_data (demoWorld []) ⟨.none, .text [], 1, some 64, none, none, .one true, .dflt⟩
    (.inl rfl) (by simp) (.inr (.inl fun f => by simp))
  have h3' : eabInit (demoWorld []) ⟨.none, .text [], 1, some 64, none, none, .dflt, .dflt⟩ = .ok e := by
    rw [C123_accepted_partial _ _ rfl rfl (by simp), C123_as_ocb _ _ (by simp) (by simp)]
    exact h3
  have hem : o.hem = e.hem := by rw [(C34_constructor h1).2.1, (C34_constructor h3).2.1]
  obtain ⟨d, hd⟩ := (C135_accepted (demoWorld []) demoView_sees
    { demoDual with eabFile := .none, ocbFile := .none, eabRfunc := .dflt, eabInst := .text [] }
    (by simp [demoDual]) (by simp [demoDual])).2 ⟨by simp [demoDual]; norm_num, by simp [demoDual], e, o, .inr ⟨rfl, h3'⟩,
      .inr ⟨rfl, h1⟩, hem⟩
  obtain ⟨e', o', k1, -, k3, -⟩ := C135_members hd
  refine ⟨d, hd, C136_no_file_refuted hd rfl rfl (i := []) rfl ?_ name text⟩
  rcases k1 with k1 | ⟨-, k1⟩
  · cases k1
  · have : e' = e := by
      have := h3'.symm.trans k1
      cases this
      rfl
    rw [k3, this]
    exact h4.1

end Ocb.Init
