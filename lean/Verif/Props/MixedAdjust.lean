import Verif.Props.Mixed

/-!
# Properties of `adjust_vector` with single values and arrays mixed (C139)
-/

set_option autoImplicit false

namespace Ocb.Mix

open Ocb.Time Ocb.Coord Ocb.Vec

variable {k : ℕ}

/-! ## What the parts do at one position -/

theorem norm_val (c : Call k) (i : Fin k) : c.norm.val i = true ↔ (c.row i).IsNorm := by
  unfold Call.norm
  rw [zip_val, zip_val, map_val]
  unfold VIn.IsNorm VIn.IsZero VIn.IsNs Call.row
  simp only [Bool.not_eq_true', Bool.or_eq_false_iff, Bool.and_eq_false_iff, decide_eq_false_iff_not]
  tauto

theorem norm_arr (c : Call k) : c.norm.isArr = (c.n.isArr || c.e.isArr || c.ang.isArr) := by
  unfold Call.norm
  rw [zip_arr, zip_arr, map_arr]

theorem any_val (hk : 0 < k) (x : Arg k Bool) : x.any = (List.finRange k).any x.val := by
  cases x with
  | many f => rfl
  | one b =>
    show b = _
    cases b
    · symm; rw [List.any_eq_false]; intro i _; exact Bool.false_ne_true
    · symm; rw [List.any_eq_true]; exact ⟨⟨0, hk⟩, List.mem_finRange _, rfl⟩

theorem any_of {x : Arg k Bool} (i : Fin k) (h : x.val i = true) : x.any = true := by
  rw [any_val i.pos, List.any_eq_true]
  exact ⟨i, List.mem_finRange i, h⟩

theorem undefined_iff (hk : 0 < k) (m : Arg k Bool) (q : Arg k ℤ) (hm : m.any = true) :
    Call.undefinedQuad m q = true ↔ ∃ i, m.val i = true ∧ q.val i = 0 := by
  rw [any_val hk, List.any_eq_true] at hm
  obtain ⟨j, -, hj⟩ := hm
  cases q with
  | one q =>
    show decide (q = 0) = true ↔ _
    rw [decide_eq_true_eq]
    exact ⟨fun h => ⟨j, hj, h⟩, fun ⟨_, _, h⟩ => h⟩
  | many f =>
    show (List.finRange k).any _ = true ↔ _
    rw [List.any_eq_true]
    constructor
    · rintro ⟨i, -, h⟩
      rw [Bool.and_eq_true, decide_eq_true_eq] at h
      exact ⟨i, h⟩
    · rintro ⟨i, h⟩
      refine ⟨i, List.mem_finRange i, ?_⟩
      rw [Bool.and_eq_true, decide_eq_true_eq]
      exact h

theorem collapse_one (q : ℤ) (h : 0 ≤ q ∧ q ≤ 4) : collapse [q] = q := by
  obtain ⟨h0, h1⟩ := h
  interval_cases q <;> rfl

theorem poleQuad_range (d p a : F) : 0 ≤ poleQuad d p a ∧ poleQuad d p a ≤ 4 := by
  unfold poleQuad
  split
  · simp only
    split_ifs <;> simp
  · simp

/-- The quadrants of the poles are computed entry by entry: not if both local times are single and the angle is not. -/
theorem poleQuadMix_val (d p a : Arg k F) (h : d.isArr = true ∨ p.isArr = true ∨ a.isArr = false) (i : Fin k) :
    (poleQuadMix d p a).val i = poleQuad (d.val i) (p.val i) (a.val i) := by
  cases d with
  | many f => rfl
  | one d =>
    cases p with
    | many f => rfl
    | one p =>
      cases a with
      | many f => rcases h with h | h | h <;> cases h
      | one a => exact collapse_one _ (poleQuad_range d p a)

/-- The quadrants of the poles do not need the local times to be computed, or are computed entry by entry. -/
def QuadsApart (c : Call k) : Prop :=
  c.lt.isArr = true ∨ c.poleLt.isArr = true ∨ c.ang.isArr = false ∨ ∀ i, (c.row i).IsNorm → c.pq.val i ≠ 0

open Classical in
theorem vqNow_val (hk : 0 < k) (c : Call k) (hm : c.norm.any = true) (i : Fin k) :
    c.vqNow.val i = if ∃ j, (c.row j).IsNorm ∧ c.vq.val j = 0 then vectQuad (c.n.val i) (c.e.val i) else c.vq.val i := by
  have hu := undefined_iff hk c.norm c.vq hm
  simp only [norm_val] at hu
  unfold Call.vqNow
  by_cases h : ∃ j, (c.row j).IsNorm ∧ c.vq.val j = 0
  · rw [if_pos (hu.2 h), if_pos h, vectQuadMix, zip_val]
  · rw [if_neg (fun x => h (hu.1 x)), if_neg h]

open Classical in
theorem pqNow_val (hk : 0 < k) (c : Call k) (hm : c.norm.any = true) (hq : QuadsApart c) (i : Fin k) :
    c.pqNow.val i = if ∃ j, (c.row j).IsNorm ∧ c.pq.val j = 0 then
      poleQuad (c.lt.val i) (c.poleLt.val i) (c.ang.val i) else c.pq.val i := by
  have hu := undefined_iff hk c.norm c.pq hm
  simp only [norm_val] at hu
  unfold Call.pqNow
  by_cases h : ∃ j, (c.row j).IsNorm ∧ c.pq.val j = 0
  · rw [if_pos (hu.2 h), if_pos h, poleQuadMix_val]
    rcases hq with h1 | h1 | h1 | h1
    · exact .inl h1
    · exact .inr (.inl h1)
    · exact .inr (.inr h1)
    · obtain ⟨j, h2, h3⟩ := h
      exact absurd h3 (h1 j h2)
  · rw [if_neg (fun x => h (hu.1 x)), if_neg h]

/-- Some argument is an array. -/
def HasArray (c : Call k) : Prop :=
  c.lt.isArr = true ∨ c.lat.isArr = true ∨ c.n.isArr = true ∨ c.e.isArr = true ∨ c.z.isArr = true ∨
  c.vq.isArr = true ∨ c.poleLt.isArr = true ∨ c.poleLat.isArr = true ∨ c.ang.isArr = true ∨ c.pq.isArr = true

theorem single_arr {α : Type*} {x : Arg k α} {a : α} (h : x.single = some a) : x.isArr = false := by
  cases x
  · rfl
  · cases h

theorem single_none (c : Call k) (h : HasArray c) : c.single = none := by
  cases hs : c.single with
  | none => rfl
  | some x =>
    exfalso
    unfold Call.single at hs
    simp only [bind, Option.bind_eq_some_iff] at hs
    obtain ⟨_, h1, _, h2, _, h3, _, h4, _, h5, _, h6, _, h7, _, h8, _, h9, _, h10, -⟩ := hs
    unfold HasArray at h
    rw [single_arr h1, single_arr h2, single_arr h3, single_arr h4, single_arr h5, single_arr h6, single_arr h7,
      single_arr h8, single_arr h9, single_arr h10] at h
    simp at h

/-! ## A vector of the general case -/

section regular

variable {c : Call k} {i : Fin k} {n e p A : ℝ}

theorem any_norm (h : Regular (c.row i) n e p A) : c.norm.any = true := any_of i ((norm_val c i).2 h.isNorm)

theorem vq_regular (h : Regular (c.row i) n e p A) : c.vqNow.val i = vectQuad (some n) (some e) := by
  classical
  rw [vqNow_val i.pos c (any_norm h)]
  have hn : c.n.val i = some n := h.north
  have he : c.e.val i = some e := h.east
  split_ifs with hc
  · rw [hn, he]
  · exact h.quads.1 _ (.inl rfl) (fun h0 => hc ⟨i, h.isNorm, h0⟩)

theorem pq_regular (h : Regular (c.row i) n e p A) (hq : QuadsApart c) :
    Half (c.pqNow.val i) p ∧ azim (c.pqNow.val i) p = A := by
  classical
  rw [pqNow_val i.pos c (any_norm h) hq]
  split_ifs with hc
  · obtain ⟨d, l, hd, hl, hb, -⟩ := h.pole
    have h1 : c.lt.val i = some d := hd
    have h2 : c.poleLt.val i = some l := hl
    have h3 : c.ang.val i = some p := h.ang
    rw [h1, h2, h3]
    exact bearing_quad h.pos.le h.lt180.le hb
  · exact h.quads.2 _ (.inl rfl) (fun h0 => hc ⟨i, h.isNorm, h0⟩)

theorem normAt_regular (h : Regular (c.row i) n e p A) (hq : QuadsApart c) : Rotated (c.row i) n e A (c.normAt i) := by
  unfold Call.normAt
  rw [vq_regular h]
  exact normOut_rotated _ h (pq_regular h hq).1 (pq_regular h hq).2

theorem checks_regular (h : Regular (c.row i) n e p A) (hq : QuadsApart c) :
    (c.pqNow.map inQuads).any = true ∧ (c.vqNow.map inQuads).any = true := by
  refine ⟨any_of i ?_, any_of i ?_⟩
  · rw [map_val]; exact half_in (pq_regular h hq).1
  · rw [map_val, vq_regular h]; exact vectQuad_in n e

end regular

/-! ## C139 -/

open Classical in
/-- C139: if a horizontal component is an array, then whatever the shapes of the other arguments there is one result per
entry, and every vector of the general case is rotated; provided the quadrants are given or need not be computed from
single local times and an array of angles (see `C139_quadrants_refuted`). -/
theorem C139_rotation_partial (c : Call k) (hv : c.n.isArr = true ∨ c.e.isArr = true) (hq : QuadsApart c)
    (i : Fin k) (n e p A : ℝ) (h : Regular (c.row i) n e p A) :
    ∃ f : Fin k → VOut, adjustMix c = .ok (.flat (List.ofFn f)) ∧ Rotated (c.row i) n e A (f i) := by
  refine ⟨fun i => if c.norm.val i then c.normAt i else specialOut (c.row i), ?_, ?_⟩
  · unfold adjustMix
    rw [single_none c (by unfold HasArray; tauto)]
    show (if c.norm.any = true then _ else _) = _
    rw [if_pos (any_norm h), if_neg (not_not.2 (checks_regular h hq).1), if_neg (not_not.2 (checks_regular h hq).2),
      if_pos (by simpa using hv), List.ofFn_eq_map]
  · show Rotated _ _ _ _ (if c.norm.val i = true then _ else _)
    rw [if_pos ((norm_val c i).2 h.isNorm)]
    exact normAt_regular h hq

theorem finRange_any (f : Fin k → Bool) (g : VIn → Bool) (c : Call k) (h : ∀ i, f i = g (c.row i)) :
    (List.finRange k).any f = ((List.finRange k).map c.row).any g := by
  rw [List.any_map]
  congr 1
  exact funext h

open Classical in
/-- C139: with an array of vertical components too, the call gives what ten arrays holding the same values give, for all
values (NaN, aligned or zero vectors, any quadrants), errors included. -/
theorem C139_arrays_partial (c : Call k) (hv : c.n.isArr = true ∨ c.e.isArr = true) (hz : c.z.isArr = true)
    (hq : QuadsApart c) : adjustMix c = (adjustArr ((List.finRange k).map c.row)).map .flat := by
  have hnorm : c.norm.any = ((List.finRange k).map c.row).any (fun x => decide x.IsNorm) := by
    rw [any_many _ (by rw [norm_arr]; rcases hv with h | h <;> simp [h])]
    refine finRange_any _ _ c (fun i => ?_)
    rw [Bool.eq_iff_iff, decide_eq_true_eq]
    exact norm_val c i
  unfold adjustMix adjustArr
  rw [single_none c (by unfold HasArray; tauto)]
  show (if c.norm.any = true then _ else _) = _
  rw [← hnorm]
  by_cases hm : c.norm.any = true
  · have hk : 0 < k := by
      rw [any_many _ (by rw [norm_arr]; rcases hv with h | h <;> simp [h]), List.any_eq_true] at hm
      exact hm.choose.pos
    have hex : ∀ q : VIn → ℤ, ((List.finRange k).map c.row).any (fun x => decide (x.IsNorm ∧ q x = 0)) = true ↔
        ∃ j, (c.row j).IsNorm ∧ q (c.row j) = 0 := fun q => by
      rw [List.any_map, List.any_eq_true]
      constructor
      · rintro ⟨j, -, h⟩
        exact ⟨j, of_decide_eq_true h⟩
      · rintro ⟨j, h⟩
        exact ⟨j, List.mem_finRange j, decide_eq_true h⟩
    have hV : ∀ i, c.vqNow.val i = (if ((List.finRange k).map c.row).any (fun x => decide (x.IsNorm ∧ x.vq = 0)) then
        fun x => vectQuad x.n x.e else VIn.vq : VIn → ℤ) (c.row i) := fun i => by
      rw [vqNow_val hk c hm]
      by_cases hx : ∃ j, (c.row j).IsNorm ∧ c.vq.val j = 0
      · rw [if_pos hx, if_pos ((hex VIn.vq).2 hx)]; rfl
      · rw [if_neg hx, if_neg (fun y => hx ((hex VIn.vq).1 y))]; rfl
    have hP : ∀ i, c.pqNow.val i = (if ((List.finRange k).map c.row).any (fun x => decide (x.IsNorm ∧ x.pq = 0)) then
        fun x => poleQuad x.lt x.poleLt x.ang else VIn.pq : VIn → ℤ) (c.row i) := fun i => by
      rw [pqNow_val hk c hm hq]
      by_cases hx : ∃ j, (c.row j).IsNorm ∧ c.pq.val j = 0
      · rw [if_pos hx, if_pos ((hex VIn.pq).2 hx)]; rfl
      · rw [if_neg hx, if_neg (fun y => hx ((hex VIn.pq).1 y))]; rfl
    rw [if_pos hm, if_pos hm]
    simp only
    generalize (if ((List.finRange k).map c.row).any (fun x => decide (x.IsNorm ∧ x.vq = 0)) then
        fun x => vectQuad x.n x.e else VIn.vq : VIn → ℤ) = V at hV
    generalize (if ((List.finRange k).map c.row).any (fun x => decide (x.IsNorm ∧ x.pq = 0)) then
        fun x => poleQuad x.lt x.poleLt x.ang else VIn.pq : VIn → ℤ) = P at hP
    have e1 : (c.pqNow.map inQuads).any = ((List.finRange k).map c.row).any (fun x => inQuads (P x)) := by
      rw [any_val hk]
      exact finRange_any _ _ c (fun i => by rw [map_val, hP])
    have e2 : (c.vqNow.map inQuads).any = ((List.finRange k).map c.row).any (fun x => inQuads (V x)) := by
      rw [any_val hk]
      exact finRange_any _ _ c (fun i => by rw [map_val, hV])
    rw [e1, e2, if_pos (show (c.n.isArr || c.e.isArr) = true by simpa using hv)]
    by_cases h1 : ((List.finRange k).map c.row).any (fun x => inQuads (P x)) = true
    · by_cases h2 : ((List.finRange k).map c.row).any (fun x => inQuads (V x)) = true
      · rw [if_neg (not_not.2 h1), if_neg (not_not.2 h1), if_neg (not_not.2 h2), if_neg (not_not.2 h2)]
        show _ = Except.ok (Out.flat _)
        rw [List.map_map]
        congr 2
        refine List.map_congr_left fun i _ => ?_
        show _ = if (c.row i).IsNorm then _ else _
        by_cases hi : (c.row i).IsNorm
        · rw [if_pos hi, if_pos ((norm_val c i).2 hi)]
          unfold Call.normAt
          rw [hz, hP, hV]
        · rw [if_neg hi, if_neg (fun y => hi ((norm_val c i).1 y))]
      · rw [if_neg (not_not.2 h1), if_neg (not_not.2 h1), if_pos h2, if_pos h2]; rfl
    · rw [if_pos h1, if_pos h1]; rfl
  · rw [if_neg hm, if_neg hm]
    show _ = Except.ok (Out.flat _)
    rw [List.map_map]
    rfl

/-- C139 is false for quadrants left to the code, single local times and an array of angles on both sides of 90 degrees:
the call raises, although each vector alone would be rotated. -/
theorem C139_quadrants_refuted (c : Call k) (d l a b : ℝ) (f : Fin k → F) (i j : Fin k) (n e A : ℝ)
    (hlt : c.lt = .one (some d)) (hl : c.poleLt = .one (some l)) (hf : c.ang = .many f) (hi : f i = some a)
    (hj : f j = some b) (ha : a < 90) (hb : 90 ≤ b) (hq : c.pq = .one 0) (h : Regular (c.row i) n e a A) :
    adjustMix c = .error .valueError ∧ ∃ o, adjustOne (c.row i) = .ok o ∧ Rotated (c.row i) n e A o := by
  refine ⟨?_, C42_rotation_single _ n e a A h⟩
  have hp : c.pqNow = .one 0 := by
    unfold Call.pqNow
    rw [hq, hlt, hl, hf]
    show (if decide ((0 : ℤ) = 0) = true then _ else _) = _
    rw [if_pos (by decide)]
    exact (C138_angles_refuted d l a b f i j hi hj ha hb).1
  unfold adjustMix
  rw [single_none c (by unfold HasArray; rw [hf]; simp [Arg.isArr])]
  show (if c.norm.any = true then _ else _) = _
  rw [if_pos (any_norm h), hp, if_pos]
  show ¬ inQuads 0 = true
  decide

/-- C139 for one horizontal vector, one angle and quadrants that are single too: the rotated vector at every position,
whatever the shapes of the latitudes and the vertical component. -/
theorem C139_single_vector_partial (c : Call k) (ha : HasArray c) (hn : c.n.isArr = false) (he : c.e.isArr = false)
    (hp : c.ang.isArr = false) (hlt : c.lt.isArr = false) (hl : c.poleLt.isArr = false) (hv : c.vq.isArr = false)
    (hq : c.pq.isArr = false) (hk : 0 < k) (n e p A : ℝ) (h : ∀ i, Regular (c.row i) n e p A) :
    ∃ f : Fin k → VOut, adjustMix c = .ok (.flat (List.ofFn f)) ∧ ∀ i, Rotated (c.row i) n e A (f i) := by
  have hQ : QuadsApart c := .inr (.inr (.inl hp))
  have h0 := h ⟨0, hk⟩
  have a1 : c.pqNow.isArr = false := by
    unfold Call.pqNow
    split_ifs
    · obtain ⟨x, hx⟩ := one_eq hlt
      obtain ⟨y, hy⟩ := one_eq hl
      rw [hx, hy]; rfl
    · exact hq
  have a2 : c.vqNow.isArr = false := by
    unfold Call.vqNow
    split_ifs
    · rw [vectQuadMix, zip_arr, hn, he]; rfl
    · exact hv
  refine ⟨c.normAt, ?_, fun i => normAt_regular (h i) hQ⟩
  unfold adjustMix
  rw [single_none c ha]
  show (if c.norm.any = true then _ else _) = _
  rw [if_pos (any_norm h0), if_neg (not_not.2 (checks_regular h0 hQ).1), if_neg (not_not.2 (checks_regular h0 hQ).2),
    if_neg (by simp [hn, he]), if_neg (by simp [hp]), if_neg (by simp [a1, a2]), List.ofFn_eq_map]

/-- C139 is false for one horizontal vector, one angle and an array of quadrants or of local times from which they are to
be found: the values are right, but the result has the shape `(1, k)`. -/
theorem C139_axis_refuted (c : Call k) (hn : c.n.isArr = false) (he : c.e.isArr = false) (hp : c.ang.isArr = false)
    (hq : (c.pq = .one 0 ∧ (c.lt.isArr = true ∨ c.poleLt.isArr = true)) ∨
      (c.pq.isArr = true ∧ ∀ i, c.pq.val i ≠ 0))
    (hk : 0 < k) (n e p A : Fin k → ℝ) (h : ∀ i, Regular (c.row i) (n i) (e i) (p i) (A i)) :
    ∃ f : Fin k → VOut, adjustMix c = .ok (.boxed (List.ofFn f)) ∧ ∀ i, Rotated (c.row i) (n i) (e i) (A i) (f i) := by
  have hQ : QuadsApart c := .inr (.inr (.inl hp))
  have h0 := h ⟨0, hk⟩
  have a1 : c.pqNow.isArr = true := by
    unfold Call.pqNow
    rcases hq with ⟨hq, hl⟩ | ⟨hq, hz⟩
    · rw [hq]
      show (if decide ((0 : ℤ) = 0) = true then _ else _ : Arg k ℤ).isArr = true
      rw [if_pos (by decide)]
      exact (C138_poles _ _ _ hl).1
    · rw [if_neg]
      · exact hq
      · rw [undefined_iff hk _ _ (any_norm h0)]
        rintro ⟨i, -, hi⟩
        exact hz i hi
  have ha : HasArray c := by
    unfold HasArray
    rcases hq with ⟨-, hl | hl⟩ | ⟨hq, -⟩
    · exact .inl hl
    · tauto
    · tauto
  refine ⟨c.normAt, ?_, fun i => normAt_regular (h i) hQ⟩
  unfold adjustMix
  rw [single_none c ha]
  show (if c.norm.any = true then _ else _) = _
  rw [if_pos (any_norm h0), if_neg (not_not.2 (checks_regular h0 hQ).1), if_neg (not_not.2 (checks_regular h0 hQ).2),
    if_neg (by simp [hn, he]), if_neg (by simp [hp]), if_pos (by simp [a1]), List.ofFn_eq_map]

/-- C139 is false for one horizontal vector and an array of angles of which one is 0 or 180 degrees and another is in the
general case: the result is shorter than the arrays. -/
theorem C139_aligned_refuted (c : Call k) (hn : c.n.isArr = false) (he : c.e.isArr = false) (hp : c.ang.isArr = true)
    (hq : QuadsApart c) (i j : Fin k) (n e p A : ℝ) (h : Regular (c.row i) n e p A)
    (hj : c.ang.val j = some 0 ∨ c.ang.val j = some 180) :
    ∃ l, adjustMix c = .ok (.flat l) ∧ l.length < k ∧ c.normAt i ∈ l := by
  refine ⟨((List.finRange k).filter fun i => c.norm.val i).map c.normAt, ?_, ?_, ?_⟩
  · unfold adjustMix
    rw [single_none c (by unfold HasArray; tauto)]
    show (if c.norm.any = true then _ else _) = _
    rw [if_pos (any_norm h), if_neg (not_not.2 (checks_regular h hq).1), if_neg (not_not.2 (checks_regular h hq).2),
      if_neg (by simp [hn, he]), if_pos hp]
  · rw [List.length_map]
    have : ((List.finRange k).filter fun i => c.norm.val i).length < (List.finRange k).length := by
      rw [List.length_filter_lt_length_iff_exists]
      refine ⟨j, List.mem_finRange j, ?_⟩
      rw [norm_val]
      exact fun hN => hN (.inr hj)
    rwa [List.length_finRange] at this
  · rw [List.mem_map]
    refine ⟨i, ?_, rfl⟩
    rw [List.mem_filter]
    exact ⟨List.mem_finRange i, (norm_val c i).2 h.isNorm⟩

open Classical in
/-- C139 is false for a single vertical component: beside a horizontal component that is NaN it is kept, in arrays it is
lost. -/
theorem C139_vertical_refuted (c : Call k) (hv : c.n.isArr = true ∨ c.e.isArr = true) (hq : QuadsApart c)
    (z : ℝ) (hz : c.z = .one (some z)) (i j : Fin k) (n e p A : ℝ) (h : Regular (c.row i) n e p A)
    (hj : c.n.val j = none) (hN : (c.row j).IsNorm) :
    (∃ f : Fin k → VOut, adjustMix c = .ok (.flat (List.ofFn f)) ∧ f j = (none, none, some z)) ∧
    (∃ f : Fin k → VOut, adjustMix { c with z := .many fun _ => some z } = .ok (.flat (List.ofFn f)) ∧
      f j = (none, none, none)) := by
  have key : ∀ c : Call k, (c.n.isArr = true ∨ c.e.isArr = true) → QuadsApart c → Regular (c.row i) n e p A →
      c.n.val j = none → (c.row j).IsNorm → c.z.val j = some z →
      ∃ f : Fin k → VOut, adjustMix c = .ok (.flat (List.ofFn f)) ∧
        f j = (none, none, if c.z.isArr then none else some z) := by
    intro c hv hq h hj hN hz
    refine ⟨fun i => if c.norm.val i then c.normAt i else specialOut (c.row i), ?_, ?_⟩
    · unfold adjustMix
      rw [single_none c (by unfold HasArray; tauto)]
      show (if c.norm.any = true then _ else _) = _
      rw [if_pos (any_norm h), if_neg (not_not.2 (checks_regular h hq).1), if_neg (not_not.2 (checks_regular h hq).2),
        if_pos (by simpa using hv), List.ofFn_eq_map]
    · show (if c.norm.val j = true then _ else _) = _
      rw [if_pos ((norm_val c j).2 hN)]
      unfold Call.normAt normOut
      have h1 : (c.row j).vmag = none := by
        unfold VIn.vmag
        rw [show (c.row j).n = none from hj]
      have h2 : (c.row j).naz = none := by
        unfold VIn.naz
        rw [show (c.row j).n = none from hj]
      rw [h1, h2]
      show (none, none, if c.z.isArr then none else c.z.val j) = _
      rw [hz]
  constructor
  · obtain ⟨f, h1, h2⟩ := key c hv hq h hj hN (by rw [hz]; rfl)
    exact ⟨f, h1, by rw [h2, hz]; rfl⟩
  · have h' : Regular (({ c with z := .many fun _ => some z } : Call k).row i) n e p A :=
      ⟨h.north, h.east, h.ang, h.nonzero, h.pos, h.lt180, h.vq, h.pole⟩
    exact key { c with z := .many fun _ => some z } hv hq h' hj hN rfl

/-! ## Examples -/

/-- Two vectors at one place: 3 h local time, pole at 22 h and 40 degrees from north; quadrants left to the code. -/
def demoVectors : Call 2 where
  lt := .one (some 3)
  lat := .one (some 70)
  n := .many ![some (-1), some 0]
  e := .one (some 2)
  z := .one (some 5)
  vq := .one 0
  poleLt := .one (some 22)
  poleLat := .one (some 80)
  ang := .one (some 40)
  pq := .one 0

theorem demo_regular (c : Call k) (i : Fin k) (n e : ℝ) (hn : c.n.val i = some n) (he : c.e.val i = some e)
    (h0 : ¬ (n = 0 ∧ e = 0)) (hlt : c.lt.val i = some 3) (hl : c.poleLt.val i = some 22) (hp : c.ang.val i = some 40)
    (hv : c.vq.val i = 0) (hq : c.pq.val i = 0 ∨ c.pq.val i = 2) : Regular (c.row i) n e 40 (-40) where
  north := hn
  east := he
  ang := hp
  nonzero := h0
  pos := by norm_num
  lt180 := by norm_num
  vq := .inl hv
  pole := ⟨3, 22, hlt, hl, ⟨19, ⟨⟨0, by norm_num⟩, by norm_num, by norm_num⟩, .inr ⟨by norm_num, by norm_num⟩⟩,
    hq.imp id fun h => ⟨19, ⟨⟨0, by norm_num⟩, by norm_num, by norm_num⟩, .inr (.inl ⟨h, by norm_num, by norm_num⟩)⟩⟩

example : ∃ f : Fin 2 → VOut, adjustMix demoVectors = .ok (.flat (List.ofFn f)) ∧
    Rotated (demoVectors.row 1) 0 2 (-40) (f 1) :=
  C139_rotation_partial demoVectors (.inl rfl) (.inr (.inr (.inl rfl))) 1 0 2 40 (-40)
    (demo_regular _ _ _ _ rfl rfl (by norm_num) rfl rfl rfl rfl (.inl rfl))

example : adjustMix { demoVectors with z := .many ![some 5, none] } =
    (adjustArr ((List.finRange 2).map ({ demoVectors with z := .many ![some 5, none] } : Call 2).row)).map .flat :=
  C139_arrays_partial _ (.inl rfl) rfl (.inr (.inr (.inl rfl)))

/-- The same place and pole with angles of 40 and 120 degrees. -/
example : adjustMix { demoVectors with ang := .many ![some 40, some 120] } = .error .valueError :=
  (C139_quadrants_refuted _ 3 22 40 120 ![some 40, some 120] 0 1 (-1) 2 (-40) rfl rfl rfl rfl rfl (by norm_num)
    (by norm_num) rfl (demo_regular _ _ _ _ rfl rfl (by norm_num) rfl rfl rfl rfl (.inl rfl))).1

/-- A good vector and one whose north component is NaN, one vertical component. -/
example : ∃ f : Fin 2 → VOut, adjustMix { demoVectors with n := .many ![some (-1), none] } = .ok (.flat (List.ofFn f)) ∧
    f 1 = (none, none, some 5) :=
  (C139_vertical_refuted ({ demoVectors with n := .many ![some (-1), none] } : Call 2) (.inl rfl)
    (.inr (.inr (.inl rfl))) 5 rfl 0 1 (-1) 2 40 (-40)
    (demo_regular _ _ _ _ rfl rfl (by norm_num) rfl rfl rfl rfl (.inl rfl)) rfl
    (by simp [VIn.IsNorm, VIn.IsZero, VIn.IsNs, Call.row, demoVectors, Arg.val])).1

/-- One vector with two vertical components. -/
example : ∃ f : Fin 2 → VOut,
    adjustMix { demoVectors with n := .one (some (-1)), z := .many ![some 5, some 6] } = .ok (.flat (List.ofFn f)) :=
  let ⟨f, h, _⟩ := C139_single_vector_partial
    ({ demoVectors with n := .one (some (-1)), z := .many ![some 5, some 6] } : Call 2)
    (by simp [HasArray, Arg.isArr]) rfl rfl rfl rfl rfl rfl rfl (by decide) (-1) 2 40 (-40)
    (fun i => demo_regular _ _ _ _ rfl rfl (by norm_num) rfl rfl rfl rfl (.inl rfl))
  ⟨f, h⟩

/-- One vector and two given quadrants of the pole. -/
example : ∃ f : Fin 2 → VOut,
    adjustMix { demoVectors with n := .one (some (-1)), pq := .many ![2, 2] } = .ok (.boxed (List.ofFn f)) :=
  let ⟨f, h, _⟩ := C139_axis_refuted ({ demoVectors with n := .one (some (-1)), pq := .many ![2, 2] } : Call 2)
    rfl rfl rfl (.inr ⟨rfl, fun i => by fin_cases i <;> simp [Arg.val]⟩) (by decide) (fun _ => -1) (fun _ => 2)
    (fun _ => 40) (fun _ => -40)
    (fun i => demo_regular _ _ _ _ rfl rfl (by norm_num) rfl rfl rfl rfl (.inr (by fin_cases i <;> rfl)))
  ⟨f, h⟩

/-- One vector, angles of 40 and 0 degrees at two local times. -/
example : ∃ l, adjustMix { demoVectors with
    n := .one (some (-1)), lt := .many ![some 3, some 22], ang := .many ![some 40, some 0] } = .ok (.flat l) ∧
    l.length < 2 :=
  let ⟨l, h, h', _⟩ := C139_aligned_refuted ({ demoVectors with
      n := .one (some (-1)), lt := .many ![some 3, some 22], ang := .many ![some 40, some 0] } : Call 2)
    rfl rfl rfl (.inl rfl) 0 1 (-1) 2 40 (-40)
    (demo_regular _ _ _ _ rfl rfl (by norm_num) rfl rfl rfl rfl (.inl rfl)) (.inl rfl)
  ⟨l, h, h'⟩

end Ocb.Mix
