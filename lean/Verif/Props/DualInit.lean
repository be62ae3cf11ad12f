import Verif.Props.InitShow
import Verif.Props.Pairs

/-!
# Properties of the constructor of `DualBoundary`, of its state and its texts: C135, C136
-/

set_option autoImplicit false

namespace Ocb.Init

open Ocb.Files (Name lower)
open Ocb.Coord (FnArg InWindow)
open Ocb.Cycle (Bnd Pairs Sel At)

variable {Fn Kw : Type}

/-! ### C135: the constructor -/

/-- An object with as many times and values as records; all objects that the constructors give are such (C126). -/
def Held (o : Obj Fn Kw) : Prop := ∀ times, o.dtime = some times → times.length = o.records ∧ o.rows.length = o.records

/-- The selection sees the times of the object, and one value per record. -/
def Sees (view : View) : Prop :=
  ∀ times rows a b, times.length = rows.length → (view times rows a b).dtime = times ∧ (view times rows a b).WF

theorem held_ocb {W : World Fn Kw} {A : Args Fn Kw} {o : Obj Fn Kw} (h : ocbInit W A = .ok o) : Held o := by
  intro times hd
  rcases C126_states h with h1 | ⟨f, times', -, -, -, h1, h2, h3⟩
  · obtain ⟨-, -, -, h4, -⟩ := h1
    rw [h4] at hd; cases hd
  · rw [h1] at hd
    cases hd
    exact ⟨h2, h3⟩

theorem held_eab {W : World Fn Kw} {A : Args Fn Kw} {o : Obj Fn Kw} (h : eabInit W A = .ok o) : Held o := by
  obtain ⟨A', h1, -⟩ := eab_calls h
  exact held_ocb h1

/-- The EAB of the arguments: the one that is given, or the one that `EABoundary` makes of the file, the instrument, the
hemisphere, the latitude, the times and the correction. -/
def EabOf (W : World Fn Kw) (D : DualArgs Fn Kw) (e : Obj Fn Kw) : Prop :=
  D.eab = some e ∨ D.eab = none ∧
    eabInit W ⟨D.eabFile, D.eabInst, D.hem, some D.eabLat, D.stime, D.etime, D.eabRfunc, D.eabKwargs⟩ = .ok e

/-- The OCB of the arguments -/
def OcbOf (W : World Fn Kw) (D : DualArgs Fn Kw) (o : Obj Fn Kw) : Prop :=
  D.ocb = some o ∨ D.ocb = none ∧
    ocbInit W ⟨D.ocbFile, D.ocbInst, D.hem, some D.ocbLat, D.stime, D.etime, D.ocbRfunc, D.ocbKwargs⟩ = .ok o

theorem members_iff (W : World Fn Kw) (D : DualArgs Fn Kw) (e o : Obj Fn Kw) :
    members W D = .ok (e, o) ↔ EabOf W D e ∧ OcbOf W D o := by
  unfold members EabOf OcbOf
  cases h1 : D.eab with
  | some e' =>
    cases h2 : D.ocb with
    | some o' => simp [bind, Except.bind, pure, Except.pure]
    | none =>
      simp only [bind, Except.bind, pure, Except.pure]
      split <;> simp_all
  | none =>
    simp only [bind, Except.bind, pure, Except.pure]
    split
    · next h => simp [h]
    · next h =>
      cases h2 : D.ocb with
      | some o' => simp [h]
      | none =>
        simp only
        split <;> simp_all

/-- The state after pairing -/
theorem setGood_loaded {view : View} (hv : Sees view) (so se : Sel) {d : DualObj Fn Kw} (hd : 0 ≤ d.maxDelta)
    (ho : Held d.ocb) (he : Held d.eab) {tO te : List ℤ} (h1 : d.ocb.dtime = some tO) (h2 : d.eab.dtime = some te) :
    ∃ p c, Ocb.Cycle.setGoodInd (seen view d.ocb tO) (seen view d.eab te) so se (d.maxDelta * 1000000) = .ok p ∧
      Ocb.Cycle.setRec p d.ocb.records d.eab.records 0 = .ok c ∧ p.ocbInd.length = p.dtime.length ∧
      p.eabInd.length = p.dtime.length ∧
      setGood view so se d = .ok { d with pairs := some p, records := p.records, cursor := some c.ind,
                                          ocb := { d.ocb with recInd := c.ocb }, eab := { d.eab with recInd := c.eab } } := by
  obtain ⟨o1, o2⟩ := ho tO h1
  obtain ⟨e1, e2⟩ := he te h2
  obtain ⟨-, w1⟩ := hv tO d.ocb.rows d.ocb.minFom d.ocb.maxFom (by omega)
  obtain ⟨-, w2⟩ := hv te d.eab.rows d.eab.minFom d.eab.maxFom (by omega)
  obtain ⟨p, hp, hl1, hl2, -⟩ := Ocb.Cycle.C19_pairs_valid (seen view d.ocb tO) (seen view d.eab te) w1 w2 so se
    (d.maxDelta * 1000000) (by omega)
  obtain ⟨c, hc, -⟩ := Ocb.Cycle.C22_set_in_step p d.ocb.records d.eab.records 0 hl1 hl2 (by omega)
  refine ⟨p, c, hp, hc, hl1, hl2, ?_⟩
  unfold setGood
  simp only [h1, h2, hp, hc, bind, Except.bind, pure, Except.pure]

/-- Without times nothing is paired. -/
theorem setGood_empty (view : View) (so se : Sel) {d : DualObj Fn Kw} (h : d.ocb.dtime = none ∨ d.eab.dtime = none) :
    setGood view so se d = .ok { d with pairs := none, records := 0 } := by
  unfold setGood
  rcases h with h | h
  · simp only [h]
  · cases h2 : d.ocb.dtime <;> simp only [h]

/-- What pairing should give: every pair is made of a record of each member, at times that differ by at most `max_delta`
seconds, and has the time of its OCB; the cursors are on the first pair; without pairs they are past the end of the members. -/
def Paired (d : DualObj Fn Kw) : Prop :=
  ∃ (p : Pairs) (tO te : List ℤ), d.pairs = some p ∧ d.ocb.dtime = some tO ∧ d.eab.dtime = some te ∧
    d.records = p.dtime.length ∧ p.ocbInd.length = p.dtime.length ∧ p.eabInd.length = p.dtime.length ∧
    (∀ (i : ℕ) (o e : ℤ), p.ocbInd[i]? = some o → p.eabInd[i]? = some e →
      ∃ a b, At tO o a ∧ At te e b ∧ |b - a| ≤ d.maxDelta * 1000000 ∧ p.dtime[i]? = some a) ∧
    d.cursor = some 0 ∧
    (p.dtime ≠ [] → p.ocbInd[0]? = some d.ocb.recInd ∧ p.eabInd[0]? = some d.eab.recInd) ∧
    (p.dtime = [] → d.ocb.recInd = d.ocb.records ∧ d.eab.recInd = d.eab.records)

theorem setGood_paired {view : View} (hv : Sees view) (so se : Sel) {d : DualObj Fn Kw} (hd : 0 ≤ d.maxDelta)
    (ho : Held d.ocb) (he : Held d.eab) {tO te : List ℤ} (h1 : d.ocb.dtime = some tO) (h2 : d.eab.dtime = some te) :
    ∃ d', setGood view so se d = .ok d' ∧ Paired d' := by
  obtain ⟨p, c, hp, hc, hl1, hl2, e⟩ := setGood_loaded hv so se hd ho he h1 h2
  refine ⟨_, e, ?_⟩
  obtain ⟨o1, o2⟩ := ho tO h1
  obtain ⟨e1, e2⟩ := he te h2
  obtain ⟨v1, w1⟩ := hv tO d.ocb.rows d.ocb.minFom d.ocb.maxFom (by omega)
  obtain ⟨v2, w2⟩ := hv te d.eab.rows d.eab.minFom d.eab.maxFom (by omega)
  obtain ⟨p', hp', -, -, hall⟩ := Ocb.Cycle.C19_pairs_valid (seen view d.ocb tO) (seen view d.eab te) w1 w2 so se
    (d.maxDelta * 1000000) (by omega)
  rw [hp] at hp'
  cases hp'
  refine ⟨p, tO, te, rfl, h1, h2, rfl, hl1, hl2, ?_, ?_, ?_, ?_⟩
  · intro i o e hi hi'
    obtain ⟨-, -, a, b, ha, hb, hab, ht⟩ := hall i o e hi hi'
    unfold seen at ha hb
    rw [v1] at ha
    rw [v2] at hb
    exact ⟨a, b, ha, hb, hab, ht⟩
  · obtain ⟨c', hc', h0, -⟩ := Ocb.Cycle.C22_set_in_step p d.ocb.records d.eab.records 0 hl1 hl2 (by omega)
    rw [hc] at hc'
    cases hc'
    simp only [h0]
  · intro hne
    obtain ⟨c', hc', h0, -, hs, -⟩ := Ocb.Cycle.C22_set_in_step p d.ocb.records d.eab.records 0 hl1 hl2 (by omega)
    rw [hc] at hc'
    cases hc'
    exact hs 0 (by simpa using h0) (List.length_pos_iff.2 hne)
  · intro hnil
    have hr : p.records = 0 := by unfold Pairs.records; rw [hnil]; rfl
    unfold Ocb.Cycle.setRec at hc
    rw [if_neg (by omega), if_pos (by omega), hr] at hc
    cases hc
    exact ⟨by simp, by simp⟩

/-- C135: the construction succeeds exactly if the latitude of the EAB is nearer to the equator, `max_delta` is positive,
both members can be made, and they are in the same hemisphere. -/
theorem C135_accepted (W : World Fn Kw) {view : View} (hv : Sees view) (D : DualArgs Fn Kw)
    (he : ∀ e, D.eab = some e → Held e) (ho : ∀ o, D.ocb = some o → Held o) :
    (∃ d, dualNew W view D = .ok d) ↔
      |D.eabLat| < |D.ocbLat| ∧ 0 < D.maxDelta ∧ ∃ e o, EabOf W D e ∧ OcbOf W D o ∧ o.hem = e.hem := by
  unfold dualNew
  split_ifs with h1 h2
  · simp only [exists_false, false_iff, not_and]
    intro h
    exact absurd h1 (not_le.2 h)
  · simp only [exists_false, false_iff, not_and]
    intro _ h
    omega
  · have h1' := not_le.1 h1
    cases hm : members W D with
    | error e =>
      simp only [reduceCtorEq, exists_false, false_iff, not_and]
      rintro - - ⟨e', o, h3, h4, -⟩
      rw [(members_iff W D e' o).2 ⟨h3, h4⟩] at hm
      cases hm
    | ok q =>
      obtain ⟨e, o⟩ := q
      obtain ⟨h3, h4⟩ := (members_iff W D e o).1 hm
      have hhe : Held e := by
        rcases h3 with h | ⟨-, h⟩
        · exact he e h
        · exact held_eab h
      have hho : Held o := by
        rcases h4 with h | ⟨-, h⟩
        · exact ho o h
        · exact held_ocb h
      simp only
      split_ifs with h5
      · simp only [exists_false, false_iff, not_and]
        rintro - - ⟨e', o', h6, h7, h8⟩
        have := (members_iff W D e' o').2 ⟨h6, h7⟩
        rw [hm] at this
        cases this
        exact h5 h8
      · rw [not_not] at h5
        refine ⟨fun _ => ⟨h1', by omega, e, o, h3, h4, h5⟩, fun _ => ?_⟩
        cases ht : o.dtime with
        | none => exact ⟨_, setGood_empty view noSel noSel (.inl ht)⟩
        | some tO =>
          cases ht' : e.dtime with
          | none => exact ⟨_, setGood_empty view noSel noSel (.inr ht')⟩
          | some te =>
            obtain ⟨d, hd, -⟩ := setGood_paired hv noSel noSel (d := ⟨e, o, o.hem, D.maxDelta, 0, none, none⟩)
              (show 0 ≤ D.maxDelta by omega) hho hhe ht ht'
            exact ⟨d, hd⟩

/-- What the constructor stores -/
theorem dualNew_inv {W : World Fn Kw} {view : View} {D : DualArgs Fn Kw} {d : DualObj Fn Kw} (h : dualNew W view D = .ok d) :
    0 < D.maxDelta ∧ ∃ e o, EabOf W D e ∧ OcbOf W D o ∧ o.hem = e.hem ∧
      setGood view noSel noSel ⟨e, o, o.hem, D.maxDelta, 0, none, none⟩ = .ok d := by
  unfold dualNew at h
  split_ifs at h with h1 h2
  cases hm : members W D with
  | error e => rw [hm] at h; cases h
  | ok q =>
    obtain ⟨e, o⟩ := q
    rw [hm] at h
    simp only at h
    split_ifs at h with h3
    obtain ⟨h4, h5⟩ := (members_iff W D e o).1 hm
    exact ⟨by omega, e, o, h4, h5, not_not.1 h3, h⟩

theorem setGood_keeps {view : View} {so se : Sel} {d d' : DualObj Fn Kw} (h : setGood view so se d = .ok d') :
    d' = { d with pairs := d'.pairs, records := d'.records, cursor := d'.cursor,
                  ocb := { d.ocb with recInd := d'.ocb.recInd }, eab := { d.eab with recInd := d'.eab.recInd } } := by
  unfold setGood at h
  split at h
  · simp only [bind, Except.bind, pure, Except.pure] at h
    split at h
    · cases h
    · split at h
      · cases h
      · cases h; rfl
  · cases h; rfl

/-- C135: the members are those of the arguments, up to their cursors; the hemisphere is that of both members, and the time
difference is kept. -/
theorem C135_members {W : World Fn Kw} {view : View} {D : DualArgs Fn Kw} {d : DualObj Fn Kw} (h : dualNew W view D = .ok d) :
    ∃ e o, EabOf W D e ∧ OcbOf W D o ∧ d.eab = { e with recInd := d.eab.recInd } ∧ d.ocb = { o with recInd := d.ocb.recInd } ∧
      d.hem = o.hem ∧ d.hem = e.hem ∧ d.maxDelta = D.maxDelta := by
  obtain ⟨-, e, o, h1, h2, h3, h4⟩ := dualNew_inv h
  have h5 := setGood_keeps h4
  refine ⟨e, o, h1, h2, congrArg DualObj.eab h5, congrArg DualObj.ocb h5, congrArg DualObj.hem h5, ?_,
    congrArg DualObj.maxDelta h5⟩
  rw [← h3]
  exact congrArg DualObj.hem h5

/-- C135: with data in both members the object has pairs of records near in time, and the cursors are on the first pair. -/
theorem C135_pairs {W : World Fn Kw} {view : View} (hv : Sees view) {D : DualArgs Fn Kw} {d : DualObj Fn Kw}
    (h : dualNew W view D = .ok d) (he : ∀ e, D.eab = some e → Held e) (ho : ∀ o, D.ocb = some o → Held o)
    (h1 : d.ocb.dtime ≠ none) (h2 : d.eab.dtime ≠ none) : Paired d := by
  obtain ⟨h0, e, o, h3, h4, h5, h6⟩ := dualNew_inv h
  have hk := setGood_keeps h6
  have k1 : d.ocb.dtime = o.dtime := by rw [congrArg DualObj.ocb hk]
  have k2 : d.eab.dtime = e.dtime := by rw [congrArg DualObj.eab hk]
  rw [k1] at h1
  rw [k2] at h2
  obtain ⟨tO, ht⟩ := Option.ne_none_iff_exists'.1 h1
  obtain ⟨te, ht'⟩ := Option.ne_none_iff_exists'.1 h2
  have hhe : Held e := by
    rcases h3 with h | ⟨-, h⟩
    · exact he e h
    · exact held_eab h
  have hho : Held o := by
    rcases h4 with h | ⟨-, h⟩
    · exact ho o h
    · exact held_ocb h
  obtain ⟨d', hd, hp⟩ := setGood_paired hv noSel noSel (d := ⟨e, o, o.hem, D.maxDelta, 0, none, none⟩)
    (show 0 ≤ D.maxDelta by omega) hho hhe ht ht'
  rw [h6] at hd
  cases hd
  exact hp

/-- C135: if a member has no data, the object has no pairs, the members are as they were, and cycling does nothing. -/
theorem C135_no_data {W : World Fn Kw} {view : View} {D : DualArgs Fn Kw} {d : DualObj Fn Kw} (h : dualNew W view D = .ok d)
    (hn : d.ocb.dtime = none ∨ d.eab.dtime = none) :
    d.records = 0 ∧ d.pairs = none ∧ EabOf W D d.eab ∧ OcbOf W D d.ocb ∧ nextGood d = .ok d := by
  obtain ⟨h0, e, o, h3, h4, h5, h6⟩ := dualNew_inv h
  have hk := setGood_keeps h6
  have k1 : d.ocb.dtime = o.dtime := by rw [congrArg DualObj.ocb hk]
  have k2 : d.eab.dtime = e.dtime := by rw [congrArg DualObj.eab hk]
  rw [k1, k2] at hn
  rw [setGood_empty view noSel noSel (d := ⟨e, o, o.hem, D.maxDelta, 0, none, none⟩) hn] at h6
  cases h6
  exact ⟨rfl, rfl, h3, h4, rfl⟩

/-- C135 is false: an object with a member without data has no cursor at all.  What asks for it fails with an
AttributeError, also the tests in `normal_coord` and `calc_r` that should lead to NaN. -/
theorem C135_no_data_refuted {W : World Fn Kw} {view : View} {D : DualArgs Fn Kw} {d : DualObj Fn Kw}
    (h : dualNew W view D = .ok d) (hn : d.ocb.dtime = none ∨ d.eab.dtime = none) :
    d.recInd = .error .attributeError ∧ d.noPair = .error .attributeError := by
  obtain ⟨h0, e, o, h3, h4, h5, h6⟩ := dualNew_inv h
  have hk := setGood_keeps h6
  have k1 : d.ocb.dtime = o.dtime := by rw [congrArg DualObj.ocb hk]
  have k2 : d.eab.dtime = e.dtime := by rw [congrArg DualObj.eab hk]
  rw [k1, k2] at hn
  rw [setGood_empty view noSel noSel (d := ⟨e, o, o.hem, D.maxDelta, 0, none, none⟩) hn] at h6
  cases h6
  exact ⟨rfl, rfl⟩

/-- With data the test is answered: there is a current pair exactly if there is a pair. -/
theorem C135_has_pair {W : World Fn Kw} {view : View} (hv : Sees view) {D : DualArgs Fn Kw} {d : DualObj Fn Kw}
    (h : dualNew W view D = .ok d) (he : ∀ e, D.eab = some e → Held e) (ho : ∀ o, D.ocb = some o → Held o)
    (h1 : d.ocb.dtime ≠ none) (h2 : d.eab.dtime ≠ none) : d.recInd = .ok 0 ∧ d.noPair = .ok (decide (d.records = 0)) := by
  obtain ⟨p, tO, te, -, -, -, hr, -, -, -, hc, -⟩ := C135_pairs hv h he ho h1 h2
  have e1 : d.recInd = .ok 0 := by unfold DualObj.recInd; rw [hc]
  refine ⟨e1, ?_⟩
  unfold DualObj.noPair
  rw [e1]
  simp only [bind, Except.bind, pure, Except.pure]
  congr 2
  rw [hr]
  simp

/-- C135 is false for objects that are handed over: if no times are near each other, the caller's OCB is put past its last
record, wherever it was. -/
theorem C135_given_refuted {W : World Fn Kw} {view : View} (hv : Sees view) {D : DualArgs Fn Kw} {d : DualObj Fn Kw}
    (h : dualNew W view D = .ok d) (he : ∀ e, D.eab = some e → Held e) {o : Obj Fn Kw} (hg : D.ocb = some o) (ho : Held o)
    {tO te : List ℤ} (h1 : d.ocb.dtime = some tO) (h2 : d.eab.dtime = some te)
    (hfar : ∀ a ∈ tO, ∀ b ∈ te, D.maxDelta * 1000000 < |b - a|) (hin : o.recInd < o.records) :
    d.ocb = { o with recInd := o.records } ∧ d.ocb.recInd ≠ o.recInd := by
  obtain ⟨e', o', -, h4, -, h5, -, -, h6⟩ := C135_members h
  obtain rfl : o' = o := by
    rcases h4 with h4 | ⟨h4, -⟩
    · rw [hg] at h4; exact (Option.some.inj h4).symm
    · rw [hg] at h4; cases h4
  have hrec : d.ocb.records = o'.records := by rw [h5]
  obtain ⟨p, tO', te', -, k1, k2, -, hl1, hl2, hall, -, -, hend⟩ :=
    C135_pairs hv h he (fun o hh => by rw [hg] at hh; cases hh; exact ho) (by rw [h1]; simp) (by rw [h2]; simp)
  rw [h1] at k1
  rw [h2] at k2
  cases k1
  cases k2
  have hnil : p.dtime = [] := by
    by_contra hne
    have hpos := List.length_pos_iff.2 hne
    have a1 := List.getElem?_eq_getElem (l := p.ocbInd) (i := 0) (by omega)
    have a2 := List.getElem?_eq_getElem (l := p.eabInd) (i := 0) (by omega)
    obtain ⟨a, b, ha, hb, hab, -⟩ := hall 0 _ _ a1 a2
    have := hfar a (List.mem_of_getElem? ha.2) b (List.mem_of_getElem? hb.2)
    rw [h6] at hab
    omega
  obtain ⟨e1, -⟩ := hend hnil
  rw [hrec] at e1
  refine ⟨?_, by omega⟩
  rw [h5, e1]

end Ocb.Init
