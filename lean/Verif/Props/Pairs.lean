import Verif.Lemmas.Pairs
import Verif.Props.Cycle

/-!
# Properties C19-C23 and C34: pairing, cursor and construction of `DualBoundary`; reference latitude

`Selected b min max kw k` (record `k` meets the criteria), `At l k t` (entry `k` of `l` is `t`) and `NondecOn` are
defined in `Verif.Spec.Cycle`.
-/

set_option autoImplicit false

namespace Ocb.Cycle

/-- Records of `b` selected by `s`. -/
def Sel.good (s : Sel) (b : Bnd) (k : ℤ) : Prop := Selected b s.min s.max s.kw k

theorem setGoodInd_out (ocb eab : Bnd) (ho : ocb.WF) (he : eab.WF) (so se : Sel) (tol : ℤ) (htol : 0 ≤ tol) :
    ∃ (good times : List ℤ) (l : List (ℕ × ℤ)) (p : Pairs),
      setGoodInd ocb eab so se tol = .ok p ∧
      good.Pairwise (· < ·) ∧ (∀ k, k ∈ good ↔ 0 ≤ k ∧ k < ocb.records ∧ so.good ocb k) ∧
      times.length = good.length ∧
      (∀ (i : ℕ) (k : ℤ), good[i]? = some k → times[i]? = some (tm ocb.dtime k)) ∧
      pairLoop eab se.min se.max se.kw times tol 0 (-1) = .ok l ∧
      p.dtime.length = l.length ∧ p.ocbInd.length = l.length ∧ p.eabInd.length = l.length ∧
      ∀ (i : ℕ) (q : ℕ × ℤ), l[i]? = some q → p.eabInd[i]? = some q.2 ∧
        ∃ o, good[q.1]? = some o ∧ p.ocbInd[i]? = some o ∧ p.dtime[i]? = some (tm ocb.dtime o) := by
  obtain ⟨good, eg, hp, hk⟩ := C12_retrieve_all ocb ho so.min so.max so.kw 0
  have hvalid : ∀ k ∈ good, ∃ t, pyIdx ocb.dtime k = .ok t := by
    intro k hk'
    obtain ⟨h0, h1, -⟩ := (hk k).1 hk'
    obtain ⟨a, -, ha⟩ := pyIdx_ok (l := ocb.dtime) h0 h1
    exact ⟨a, ha⟩
  obtain ⟨times, et⟩ := mapE_ok hvalid
  obtain ⟨t1, t2⟩ := mapE_get et
  have t3 : ∀ (i : ℕ) (k : ℤ), good[i]? = some k → times[i]? = some (tm ocb.dtime k) := by
    intro i k hik
    obtain ⟨t, ht1, ht2⟩ := t2 i k hik
    obtain ⟨h0, h1, -⟩ := (hk k).1 (List.mem_iff_getElem?.2 ⟨i, hik⟩)
    rw [tm_idx h0 h1] at ht2
    rw [ht1]
    simpa using ht2.symm
  obtain ⟨l, el, q1, q2, q3⟩ := pairLoop_out eab he se.min se.max se.kw times tol htol 0 (-1) (Or.inl rfl)
  have hpos : ∀ q ∈ l, q.1 < good.length := by
    intro q hq
    have := (q1 q hq).2.1
    omega
  obtain ⟨oi, eoi⟩ := mapE_ok (f := fun p : ℕ × ℤ => pyIdx good (p.1 : ℤ)) (l := l) (by
    intro q hq
    obtain ⟨a, -, ha⟩ := pyIdx_ok (l := good) (i := (q.1 : ℤ)) (by omega) (by have := hpos q hq; omega)
    exact ⟨a, ha⟩)
  obtain ⟨ts, ets⟩ := mapE_ok (f := fun p : ℕ × ℤ => pyIdx times (p.1 : ℤ)) (l := l) (by
    intro q hq
    obtain ⟨a, -, ha⟩ := pyIdx_ok (l := times) (i := (q.1 : ℤ)) (by omega) (by have := hpos q hq; omega)
    exact ⟨a, ha⟩)
  obtain ⟨o1, o2⟩ := mapE_get eoi
  obtain ⟨s1, s2⟩ := mapE_get ets
  refine ⟨good, times, l, ⟨ts, oi, l.map (·.2)⟩, ?_, hp, hk, t1, t3, el, s1, o1, by simp, ?_⟩
  · simp only [setGoodInd, eg, et, el, eoi, ets]
  · intro i q hq
    refine ⟨by simp [hq], ?_⟩
    obtain ⟨o, ho1, ho2⟩ := o2 i q hq
    obtain ⟨t, ht1, ht2⟩ := s2 i q hq
    have hgo : good[q.1]? = some o := by simpa using pyIdx_inv (by omega) ho2
    have hto : times[q.1]? = some t := by simpa using pyIdx_inv (by omega) ht2
    refine ⟨o, hgo, ho1, ?_⟩
    rw [t3 q.1 o hgo] at hto
    show ts[i]? = _
    rw [ht1, hto]

/-- C19: `set_good_ind` does not fail; the three lists have equal length; every pair consists of two good records
whose times differ by at most `max_delta`, and carries the time of its OCB record. -/
theorem C19_pairs_valid (ocb eab : Bnd) (ho : ocb.WF) (he : eab.WF) (so se : Sel) (tol : ℤ) (htol : 0 ≤ tol) :
    ∃ p, setGoodInd ocb eab so se tol = .ok p ∧ p.ocbInd.length = p.dtime.length ∧
      p.eabInd.length = p.dtime.length ∧
      ∀ (i : ℕ) (o e : ℤ), p.ocbInd[i]? = some o → p.eabInd[i]? = some e →
        so.good ocb o ∧ se.good eab e ∧
        ∃ tO te, At ocb.dtime o tO ∧ At eab.dtime e te ∧ |te - tO| ≤ tol ∧ p.dtime[i]? = some tO := by
  obtain ⟨good, times, l, p, e0, g1, g2, g3, g4, e1, l1, l2, l3, l4⟩ := setGoodInd_out ocb eab ho he so se tol htol
  obtain ⟨l', e1', q1, -, -⟩ := pairLoop_out eab he se.min se.max se.kw times tol htol 0 (-1) (Or.inl rfl)
  rw [e1] at e1'
  obtain rfl : l = l' := by simpa using e1'
  refine ⟨p, e0, by omega, by omega, ?_⟩
  intro i o e hio hie
  have hi : i < l.length := by rw [← l2]; exact (List.getElem?_eq_some_iff.1 hio).1
  obtain ⟨h1, o', h2, h3, h4⟩ := l4 i l[i] (List.getElem?_eq_getElem hi)
  obtain rfl : o' = o := by rw [h3] at hio; simpa using hio
  obtain rfl : (l[i]).2 = e := by rw [h1] at hie; simpa using hie
  obtain ⟨a1, a2, a3, a4, a5, a6, a7⟩ := q1 l[i] (List.getElem_mem hi)
  obtain ⟨b1, b2, b3⟩ := (g2 o').1 (List.mem_iff_getElem?.2 ⟨_, h2⟩)
  refine ⟨b3, a6, _, _, at_tm b1 b2, at_tm a4 a5, ?_, h4⟩
  have := tm_some (g4 _ _ h2)
  rwa [this] at a7

/-- C20: the EAB indices strictly increase (no EAB record is used twice) and the OCB indices never decrease. -/
theorem C20_pairs_monotone (ocb eab : Bnd) (ho : ocb.WF) (he : eab.WF) (so se : Sel) (tol : ℤ) (htol : 0 ≤ tol) :
    ∃ p, setGoodInd ocb eab so se tol = .ok p ∧ p.eabInd.Pairwise (· < ·) ∧ p.ocbInd.Pairwise (· ≤ ·) := by
  obtain ⟨good, times, l, p, e0, g1, g2, g3, g4, e1, l1, l2, l3, l4⟩ := setGoodInd_out ocb eab ho he so se tol htol
  obtain ⟨l', e1', q1, q2, -⟩ := pairLoop_out eab he se.min se.max se.kw times tol htol 0 (-1) (Or.inl rfl)
  rw [e1] at e1'
  obtain rfl : l = l' := by simpa using e1'
  rw [List.pairwise_iff_getElem] at g1 q2
  refine ⟨p, e0, ?_, ?_⟩
  · rw [List.pairwise_iff_getElem]
    intro i j hi hj hij
    have ha := l4 i _ (List.getElem?_eq_getElem (by omega))
    have hb := l4 j _ (List.getElem?_eq_getElem (by omega))
    have h3 := (q2 i j (by omega) (by omega) hij).2
    have hx := ha.1
    have hy := hb.1
    rw [List.getElem?_eq_getElem hi] at hx
    rw [List.getElem?_eq_getElem hj] at hy
    simp only [Option.some.injEq] at hx hy
    rw [hx, hy]
    exact h3
  · rw [List.pairwise_iff_getElem]
    intro i j hi hj hij
    obtain ⟨-, o, ho1, ho2, -⟩ := l4 i _ (List.getElem?_eq_getElem (by omega))
    obtain ⟨-, o', ho1', ho2', -⟩ := l4 j _ (List.getElem?_eq_getElem (by omega))
    have h3 := (q2 i j (by omega) (by omega) hij).1
    rw [List.getElem?_eq_getElem hi] at ho2
    rw [List.getElem?_eq_getElem hj] at ho2'
    simp only [Option.some.injEq] at ho2 ho2'
    rw [ho2, ho2']
    obtain ⟨ha, hae⟩ := List.getElem?_eq_some_iff.1 ho1
    obtain ⟨hb, hbe⟩ := List.getElem?_eq_some_iff.1 ho1'
    rcases eq_or_lt_of_le h3 with h | h
    · have : o = o' := by
        rw [← hae, ← hbe]
        congr 1
      exact this.le
    · have := g1 _ _ ha hb h
      omega

/-- C21: for time-ordered good records, there is at least one pair exactly when some good OCB record and some good
EAB record lie within the tolerance. -/
theorem C21_pair_exists_iff (ocb eab : Bnd) (ho : ocb.WF) (he : eab.WF) (so se : Sel) (tol : ℤ) (htol : 0 ≤ tol)
    (hso : NondecOn ocb.dtime (so.good ocb)) (hse : NondecOn eab.dtime (se.good eab)) :
    ∃ p, setGoodInd ocb eab so se tol = .ok p ∧
      (0 < p.records ↔ ∃ o e tO te, so.good ocb o ∧ se.good eab e ∧ At ocb.dtime o tO ∧ At eab.dtime e te ∧
        |te - tO| ≤ tol) := by
  obtain ⟨good, times, l, p, e0, g1, g2, g3, g4, e1, l1, l2, l3, l4⟩ := setGoodInd_out ocb eab ho he so se tol htol
  obtain ⟨l', e1', q1, q2, q3⟩ := pairLoop_out eab he se.min se.max se.kw times tol htol 0 (-1) (Or.inl rfl)
  rw [e1] at e1'
  obtain rfl : l = l' := by simpa using e1'
  refine ⟨p, e0, ?_⟩
  unfold Pairs.records
  rw [l1]
  constructor
  · intro hpos
    have hpos' : 0 < l.length := by omega
    obtain ⟨p', e0', m1, m2, m3⟩ := C19_pairs_valid ocb eab ho he so se tol htol
    rw [e0] at e0'
    obtain rfl : p = p' := by simpa using e0'
    obtain ⟨h1, o, h2, h3, -⟩ := l4 0 _ (List.getElem?_eq_getElem hpos')
    obtain ⟨a, b, tO, te, c1, c2, c3, -⟩ := m3 0 _ _ h3 h1
    exact ⟨o, _, tO, te, a, b, c1, c2, c3⟩
  · rintro ⟨o, e, tO, te, ho1, he1, hto, hte, hc⟩
    by_contra hneg
    have hnil : l = [] := by
      apply List.eq_nil_of_length_eq_zero
      omega
    obtain ⟨o0, o1, rfl⟩ := at_eq hto
    obtain ⟨e0', e1', rfl⟩ := at_eq hte
    obtain ⟨i, hi⟩ := List.mem_iff_getElem?.1 ((g2 o).2 ⟨o0, o1, ho1⟩)
    have hil : i < times.length := by rw [g3]; exact (List.getElem?_eq_some_iff.1 hi).1
    have hti := tm_some (g4 i o hi)
    have hD : times.Pairwise (· ≤ ·) := by
      rw [List.pairwise_iff_getElem] at g1 ⊢
      intro a b ha hb hab
      have ha' : a < good.length := by omega
      have hb' : b < good.length := by omega
      have h1 := g4 a _ (List.getElem?_eq_getElem ha')
      have h2 := g4 b _ (List.getElem?_eq_getElem hb')
      rw [List.getElem?_eq_getElem ha] at h1
      rw [List.getElem?_eq_getElem hb] at h2
      simp only [Option.some.injEq] at h1 h2
      rw [h1, h2]
      have hga := (g2 _).1 (List.getElem_mem ha')
      have hgb := (g2 _).1 (List.getElem_mem hb')
      exact nondec_tm hso _ _ hga.1 (g1 a b ha' hb' hab).le hgb.2.1 hga.2.2 hgb.2.2
    have hN : NondecOn eab.dtime (Cand (Selected eab se.min se.max se.kw) (-1)) := by
      intro a b x y hab pa pb ha hb
      refine hse a b x y hab ?_ ?_ ha hb
      · rcases pa.2 with h | h
        · have := ha.1; omega
        · exact h
      · rcases pb.2 with h | h
        · have := hb.1; omega
        · exact h
    have := q3 hnil hD hN i (by omega) hil e e0' e1' ⟨by omega, Or.inr he1⟩
    rw [hti] at this
    omega

/-- Non-vacuity of C19-C21: two short series of which the good records 1 of the OCB and 0 of the EAB pair up. -/
def exEab : Bnd where
  dtime := [90, 400]
  fom := [.fin 3, .fin 4]
  attrs := []
  minFom := .ninf
  maxFom := .pinf

theorem exEab_wf : exEab.WF := ⟨rfl, by intro k v h; simp [Bnd.attr, exEab] at h⟩

example : ∃ p, setGoodInd exBnd exEab ⟨none, none, []⟩ ⟨none, none, []⟩ 60 = .ok p ∧ 0 < p.records := by
  have hs : ∀ (l : List ℤ) (q : ℤ → Prop), l.Pairwise (· ≤ ·) → NondecOn l q := by
    intro l q hl a b s t hab _ _ ha hb
    obtain ⟨a0, a1, rfl⟩ := at_eq ha
    obtain ⟨b0, b1, rfl⟩ := at_eq hb
    have := pairwise_tm hl a.toNat b.toNat (by omega) (by omega)
    rwa [Int.toNat_of_nonneg a0, Int.toNat_of_nonneg b0] at this
  obtain ⟨p, e, hp⟩ := C21_pair_exists_iff exBnd exEab exBnd_wf exEab_wf ⟨none, none, []⟩ ⟨none, none, []⟩ 60
    (by decide) (hs _ _ (by decide)) (hs _ _ (by decide))
  refine ⟨p, e, hp.2 ⟨1, 0, 100, 90, ?_, ?_, ⟨by decide, rfl⟩, ⟨by decide, rfl⟩, by decide⟩⟩
  · exact ⟨⟨.fin 5, rfl, by decide, by decide⟩, by simp⟩
  · exact ⟨⟨.fin 3, rfl, by decide, by decide⟩, by simp⟩

/-! ### C22: cursor -/

/-- What "in step" means for a cursor: on the members of one pair, before the first record, or past the last one. -/
def InStep (p : Pairs) (nOcb nEab : ℤ) (c : Cursor) : Prop :=
  (c.ind < 0 → c.ocb < 0 ∧ c.eab < 0) ∧
  (∀ k : ℕ, c.ind = k → k < p.dtime.length → p.ocbInd[k]? = some c.ocb ∧ p.eabInd[k]? = some c.eab) ∧
  (c.ind = p.dtime.length → nOcb ≤ c.ocb ∧ nEab ≤ c.eab)

/-- C22: assigning any integer up to the number of pairs succeeds, stores it and leaves the cursors in step. -/
theorem C22_set_in_step (p : Pairs) (nOcb nEab r : ℤ) (h1 : p.ocbInd.length = p.dtime.length)
    (h2 : p.eabInd.length = p.dtime.length) (hr : r ≤ p.dtime.length) :
    ∃ c, setRec p nOcb nEab r = .ok c ∧ c.ind = r ∧ InStep p nOcb nEab c := by
  unfold setRec Pairs.records
  split
  · exact ⟨_, rfl, rfl, fun h => ⟨h, h⟩, fun k hk => by simp only at hk; omega, fun h => by simp only at h; omega⟩
  · split
    · refine ⟨_, rfl, rfl, fun h => by simp only at h; omega, fun k hk => by simp only at hk; omega, fun h => ?_⟩
      simp only at h ⊢
      omega
    · obtain ⟨a, ha, ha'⟩ := pyIdx_ok (l := p.ocbInd) (i := r) (by omega) (by omega)
      obtain ⟨b, hb, hb'⟩ := pyIdx_ok (l := p.eabInd) (i := r) (by omega) (by omega)
      rw [ha', hb']
      refine ⟨_, rfl, rfl, fun h => by simp only at h; omega, fun k hk hlt => ?_, fun h => by simp only at h; omega⟩
      simp only at hk ⊢
      subst hk
      exact ⟨by simpa using ha, by simpa using hb⟩

/-- C22: `get_next_good_ind` moves forward by exactly one until the end, where it stays. -/
theorem C22_next_step (p : Pairs) (nOcb nEab : ℤ) (c : Cursor) (h1 : p.ocbInd.length = p.dtime.length)
    (h2 : p.eabInd.length = p.dtime.length) (hc : c.ind ≤ p.dtime.length) (hs : InStep p nOcb nEab c) :
    ∃ c', getNextInd p nOcb nEab c = .ok c' ∧ InStep p nOcb nEab c' ∧ c'.ind ≤ p.dtime.length ∧
      (c.ind < p.dtime.length → p.dtime ≠ [] → c'.ind = c.ind + 1) ∧ (c.ind = p.dtime.length → c' = c) := by
  unfold getNextInd
  split
  · rename_i h
    unfold Pairs.records at h
    obtain ⟨c', e, e1, e2⟩ := C22_set_in_step p nOcb nEab (c.ind + 1) h1 h2 (by omega)
    exact ⟨c', e, e2, by omega, fun _ _ => e1, fun h => by omega⟩
  · rename_i h
    unfold Pairs.records at h
    refine ⟨c, rfl, hs, hc, fun h3 h4 => ?_, fun _ => rfl⟩
    have := List.length_pos_iff.2 h4
    omega

/-- The operations on the cursor. -/
inductive CurOp where
  | assign (r : ℤ)
  | next

/-- Running a sequence of cursor operations. -/
def runCur (p : Pairs) (nOcb nEab : ℤ) : List CurOp → Cursor → Except PyErr Cursor
  | [], c => .ok c
  | .assign r :: ops, _ =>
    match setRec p nOcb nEab r with
    | .error e => .error e
    | .ok c => runCur p nOcb nEab ops c
  | .next :: ops, c =>
    match getNextInd p nOcb nEab c with
    | .error e => .error e
    | .ok c => runCur p nOcb nEab ops c

/-- C22, histories: whatever sequence of assignments (up to the end) and steps is made, nothing is raised and the
cursors are in step afterwards. -/
theorem C22_history_in_step_partial (p : Pairs) (nOcb nEab : ℤ) (h1 : p.ocbInd.length = p.dtime.length)
    (h2 : p.eabInd.length = p.dtime.length) (ops : List CurOp)
    (hops : ∀ r, CurOp.assign r ∈ ops → r ≤ p.dtime.length) (c : Cursor) (hc : c.ind ≤ p.dtime.length)
    (hs : InStep p nOcb nEab c) :
    ∃ c', runCur p nOcb nEab ops c = .ok c' ∧ c'.ind ≤ p.dtime.length ∧ InStep p nOcb nEab c' := by
  induction ops generalizing c with
  | nil => exact ⟨c, rfl, hc, hs⟩
  | cons op ops ih =>
    have ih' := ih (fun r hr => hops r (List.mem_cons_of_mem _ hr))
    cases op with
    | assign r =>
      obtain ⟨c', e, e1, e2⟩ := C22_set_in_step p nOcb nEab r h1 h2 (hops r List.mem_cons_self)
      obtain ⟨c'', e3⟩ := ih' c' (by rw [e1]; exact hops r List.mem_cons_self) e2
      exact ⟨c'', by simp only [runCur, e]; exact e3.1, e3.2⟩
    | next =>
      obtain ⟨c', e, e1, e2, -⟩ := C22_next_step p nOcb nEab c h1 h2 hc hs
      obtain ⟨c'', e3⟩ := ih' c' e2 e1
      exact ⟨c'', by simp only [runCur, e]; exact e3.1, e3.2⟩

/-- C22 fails past the end: with one pair and members of five records, assigning 3 puts both members on record 3,
a valid record that belongs to no pair. -/
theorem C22_beyond_end_refuted :
    ∃ (p : Pairs) (r : ℤ), (p.ocbInd.length = p.dtime.length ∧ p.eabInd.length = p.dtime.length) ∧ p.records < r ∧
      setRec p 5 5 r = .ok ⟨r, 3, 3⟩ :=
  ⟨⟨[0], [0], [0]⟩, 3, by decide, by decide, by decide⟩

example : ∃ c', runCur ⟨[7, 8], [4, 6], [1, 3]⟩ 9 9 [.assign (-1), .next, .next, .next, .next] ⟨0, 4, 1⟩ = .ok c' ∧
    c' = ⟨2, 9, 9⟩ := ⟨_, by rfl, rfl⟩

/-! ### C23, C34: constructors -/

/-- C34: for a valid hemisphere and a non-zero latitude, the object's latitude has the sign of the hemisphere and
the magnitude given. -/
theorem C34_lat_in_hemisphere_partial (hem : ℤ) (x : ℚ) (hh : hem = 1 ∨ hem = -1) (hx : x ≠ 0) :
    ∃ y, mkObj hem (some (.fin x)) = .ok ⟨hem, .fin y⟩ ∧ |y| = |x| ∧ 0 < (hem : ℚ) * y := by
  unfold mkObj
  rw [if_pos hh]
  rcases lt_or_gt_of_ne hx with h | h
  · rcases hh with rfl | rfl
    · refine ⟨-x, ?_, abs_neg x, by simpa using h⟩
      simp [Fl.sign, h, Fl.eq, Fl.neg]
      intro h
      norm_num at h
    · refine ⟨x, ?_, rfl, by simpa using h⟩
      simp [Fl.sign, h, Fl.eq]
  · have h' : ¬ x < 0 := not_lt.2 h.le
    rcases hh with rfl | rfl
    · refine ⟨x, ?_, rfl, by simpa using h⟩
      simp [Fl.sign, h, h', Fl.eq]
    · refine ⟨-x, ?_, abs_neg x, by simpa using h⟩
      simp [Fl.sign, h, h', Fl.eq, Fl.neg]
      intro h
      norm_num at h

/-- C34: any other hemisphere raises `ValueError`, whatever the latitude. -/
theorem C34_bad_hemisphere (hem : ℤ) (lat : Option (Fl ℚ)) (h1 : hem ≠ 1) (h2 : hem ≠ -1) :
    mkObj hem lat = .error .valueError := by
  unfold mkObj
  rw [if_neg (by simp [h1, h2])]

/-- C34 fails for `boundary_lat=None`: the documented default is never used, `TypeError` is raised. -/
theorem C34_none_refuted (hem : ℤ) (hh : hem = 1 ∨ hem = -1) : mkObj hem none = .error .typeError := by
  unfold mkObj
  rw [if_pos hh]

/-- C34, excluded case: latitude zero is accepted and kept. -/
theorem C34_zero_kept : mkObj 1 (some (.fin 0)) = .ok ⟨1, .fin 0⟩ := by
  unfold mkObj
  rw [if_pos (Or.inl rfl)]
  simp [Fl.sign, Fl.eq, Fl.neg]

/-- C23: when both members are built by the constructor from finite latitudes, it succeeds exactly if `max_delta` is
positive, the hemisphere is valid and the EAB latitude is smaller in magnitude than the OCB latitude. -/
theorem C23_dual_init_built_partial (x y d : ℚ) (hem : ℤ) :
    (∃ e o, dualInit (.fin x) (.fin y) (.fin d) hem none none = .ok (e, o)) ↔
      (0 < d ∧ |x| < |y| ∧ (hem = 1 ∨ hem = -1)) := by
  unfold dualInit
  simp only [Fl.abs, Fl.le, decide_eq_true_eq]
  split
  · rename_i h
    simp only [reduceCtorEq, exists_false, false_iff, not_and]
    intro _ h2
    exact absurd h (not_le.2 h2)
  · rename_i h
    split
    · rename_i h'
      simp only [reduceCtorEq, exists_false, false_iff, not_and]
      intro h2
      exact absurd h' (not_le.2 h2)
    · rename_i h'
      by_cases hh : hem = 1 ∨ hem = -1
      · have hm : ∀ l, ∃ o, mkObj hem (some l) = .ok o ∧ o.hemisphere = hem := by
          intro l
          unfold mkObj
          rw [if_pos hh]
          simp only
          split
          · exact ⟨_, rfl, rfl⟩
          · exact ⟨_, rfl, rfl⟩
        obtain ⟨e, he, he'⟩ := hm (.fin x)
        obtain ⟨o, ho, ho'⟩ := hm (.fin y)
        simp only [he, ho, he', ho', ne_eq, not_true_eq_false, if_false]
        simp only [Except.ok.injEq, Prod.mk.injEq, exists_eq', exists_eq_left', exists_and_left, true_iff]
        exact ⟨not_le.1 h', not_le.1 h, hh⟩
      · rw [not_or] at hh
        simp only [C34_bad_hemisphere hem _ hh.1 hh.2, reduceCtorEq, exists_false, false_iff, not_and, not_or]
        exact fun _ _ => hh

theorem mkObj_fin (hem : ℤ) (x : ℚ) (o : BObj) (h : mkObj hem (some (.fin x)) = .ok o) :
    ∃ y, o = ⟨hem, .fin y⟩ ∧ |y| = |x| := by
  unfold mkObj at h
  split at h
  · simp only at h
    split at h
    · exact ⟨x, by simpa using h.symm, rfl⟩
    · exact ⟨-x, by simpa [Fl.neg] using h.symm, abs_neg x⟩
  · simp at h

/-- C23: the members built by the constructor from finite latitudes are in the requested hemisphere and the EAB is
equatorward of the OCB. -/
theorem C23_dual_init_built_members (x y d : ℚ) (hem : ℤ) (e o : BObj)
    (h : dualInit (.fin x) (.fin y) (.fin d) hem none none = .ok (e, o)) :
    ∃ x' y', e = ⟨hem, .fin x'⟩ ∧ o = ⟨hem, .fin y'⟩ ∧ |x'| < |y'| := by
  have hlt := ((C23_dual_init_built_partial x y d hem).1 ⟨e, o, h⟩).2.1
  unfold dualInit at h
  split at h
  · simp at h
  split at h
  · simp at h
  simp only at h
  split at h
  · simp at h
  · rename_i e' he
    split at h
    · simp at h
    · rename_i o' ho
      split at h
      · simp at h
      · simp only [Except.ok.injEq, Prod.mk.injEq] at h
        obtain ⟨rfl, rfl⟩ := h
        obtain ⟨x', hx1, hx2⟩ := mkObj_fin hem x e' he
        obtain ⟨y', hy1, hy2⟩ := mkObj_fin hem y o' ho
        exact ⟨x', y', hx1, hy1, by rw [hx2, hy2]; exact hlt⟩

/-- C23: a constructed object always has members of the same hemisphere and never a non-positive tolerance. -/
theorem C23_dual_init_sound (el ol d : Fl ℚ) (hem : ℤ) (eab ocb : Option BObj) (e o : BObj)
    (h : dualInit el ol d hem eab ocb = .ok (e, o)) :
    e.hemisphere = o.hemisphere ∧ Fl.le d (.fin 0) = false ∧ Fl.le (Fl.abs ol) (Fl.abs el) = false := by
  unfold dualInit at h
  split at h
  · simp at h
  · rename_i h1
    split at h
    · simp at h
    · rename_i h2
      split at h
      · simp at h
      · split at h
        · simp at h
        · split at h
          · simp at h
          · rename_i h3
            simp only [Except.ok.injEq, Prod.mk.injEq] at h
            obtain ⟨rfl, rfl⟩ := h
            exact ⟨by simpa using Eq.symm (not_not.1 h3), by simpa using h2, by simpa using h1⟩

/-- C23 fails for ready-made members: the latitudes checked are the keyword defaults, not those of the objects.  An
"EAB" at 80 degrees and an "OCB" at 60 degrees are accepted. -/
theorem C23_ready_made_refuted :
    ∃ e o, dualInit (.fin 64) (.fin 74) (.fin 60) 1 (some ⟨1, .fin 80⟩) (some ⟨1, .fin 60⟩) = .ok (e, o) ∧
      e.lat = .fin 80 ∧ o.lat = .fin 60 := by
  refine ⟨⟨1, .fin 80⟩, ⟨1, .fin 60⟩, ?_, rfl, rfl⟩
  unfold dualInit
  simp only [Fl.abs, Fl.le]
  norm_num

/-- C23 fails for NaN latitudes, which pass the comparison. -/
theorem C23_nan_refuted : ∃ e o, dualInit .nan (.fin 74) (.fin 60) 1 none none = .ok (e, o) ∧ e.lat = .nan := by
  refine ⟨⟨1, .nan⟩, ⟨1, .fin 74⟩, ?_, rfl⟩
  unfold dualInit mkObj
  simp only [Fl.abs, Fl.le, Fl.sign, Fl.neg, Fl.eq]
  norm_num

end Ocb.Cycle
