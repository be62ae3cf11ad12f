import Verif.Model.Mixed
import Verif.Lemmas.Basic
import Verif.Props.Vectors
import Verif.Props.Pole

/-!
# Properties of single values and arrays mixed in one call of `vectors.py` (C137-C139)
-/

set_option autoImplicit false

namespace Ocb.Mix

open Ocb.Time Ocb.Coord Ocb.Vec

variable {k : ℕ}

/-! ## Broadcasting -/

theorem zip_val {α β γ : Type*} (f : α → β → γ) (x : Arg k α) (y : Arg k β) (i : Fin k) :
    (Arg.zip f x y).val i = f (x.val i) (y.val i) := by
  cases x <;> cases y <;> rfl

theorem map_val {α β : Type*} (f : α → β) (x : Arg k α) (i : Fin k) : (x.map f).val i = f (x.val i) := by
  cases x <;> rfl

theorem zip_arr {α β γ : Type*} (f : α → β → γ) (x : Arg k α) (y : Arg k β) :
    (Arg.zip f x y).isArr = (x.isArr || y.isArr) := by
  cases x <;> cases y <;> rfl

theorem map_arr {α β : Type*} (f : α → β) (x : Arg k α) : (x.map f).isArr = x.isArr := by
  cases x <;> rfl

theorem arr_eq {α : Type*} {x : Arg k α} (h : x.isArr = true) : x = .many x.val := by
  cases x
  · cases h
  · rfl

theorem one_eq {α : Type*} {x : Arg k α} (h : x.isArr = false) : ∃ a, x = .one a := by
  cases x with
  | one a => exact ⟨a, rfl⟩
  | many f => cases h

theorem any_many (x : Arg k Bool) (h : x.isArr = true) : x.any = (List.finRange k).any x.val := by
  rw [arr_eq h]; rfl

/-! ## C137: the pole angle -/

/-- What the claim asks: an array with, at every position, the angle of a call with the single values there. -/
def AngleEach (dataLt dataLat poleLt poleLat : Arg k F) (o : Out F) : Prop :=
  ∃ f : Fin k → F, o = .flat (List.ofFn f) ∧
    ∀ i, poleAngle (dataLt.val i) (dataLat.val i) (poleLt.val i) (poleLat.val i) = .ok (f i)

/-- The pole angle of an entry is the one of the single values, if the latitudes are numbers. -/
theorem entry_eq (t p : F) (a b : ℝ) : poleAngleEntry t (some a) p (some b) = poleAngle t (some a) p (some b) := by
  cases p with
  | none => rfl
  | some p =>
    cases t with
    | none => rfl
    | some t => exact (C66_pole_angle t a p b).symm

/-- The angle of a call with single values always exists. -/
theorem angle_ok (t a p b : F) : ∃ x, poleAngle t a p b = .ok x := by
  unfold poleAngle
  cases h : ltDiff p t with
  | none => exact ⟨none, rfl⟩
  | some d =>
    simp only [hr2rad_ok, bind, Except.bind, pure, Except.pure]
    split_ifs
    · exact ⟨_, rfl⟩
    · exact ⟨_, rfl⟩
    · cases a with
      | none => exact ⟨_, rfl⟩
      | some a => cases b with
        | none => exact ⟨_, rfl⟩
        | some b => exact ⟨_, rfl⟩

theorem mapE_fin {α : Type*} (g : Fin k → Except PyErr α) (f : Fin k → α) (h : ∀ i, g i = .ok (f i)) :
    Ocb.mapE g (List.finRange k) = .ok (List.ofFn f) := by
  have : g = fun i => .ok (f i) := funext h
  rw [this, List.ofFn_eq_map]
  generalize List.finRange k = l
  induction l with
  | nil => rfl
  | cons a l ih => simp [Ocb.mapE, ih]

/-- C137: with an array among the local times, whatever the shapes of the others, there is one angle per entry, that of
the single values; latitudes that are numbers. -/
theorem C137_local_times (dataLt dataLat poleLt poleLat : Arg k F)
    (ht : dataLt.isArr = true ∨ poleLt.isArr = true)
    (ha : ∀ i, dataLat.val i ≠ none) (hb : ∀ i, poleLat.val i ≠ none) :
    ∃ o, angleMix dataLt dataLat poleLt poleLat = .ok o ∧ AngleEach dataLt dataLat poleLt poleLat o := by
  choose f hf using fun i => angle_ok (dataLt.val i) (dataLat.val i) (poleLt.val i) (poleLat.val i)
  refine ⟨_, ?_, f, rfl, hf⟩
  have hz : (Arg.zip ltDiff poleLt dataLt).isArr = true := by
    rw [zip_arr]; rcases ht with h | h <;> simp [h]
  unfold angleMix
  rw [arr_eq hz]
  show Except.map _ _ = _
  rw [mapE_fin _ f]
  · rfl
  · intro i
    obtain ⟨a, ha'⟩ := Option.ne_none_iff_exists'.1 (ha i)
    obtain ⟨b, hb'⟩ := Option.ne_none_iff_exists'.1 (hb i)
    rw [← hf i, ha', hb', entry_eq]

/-- C137 for single local times and arrays of latitudes, off the meridian of the pole (or with a NaN local time).  The
meridian itself is missing: see `C137_meridian_refuted`. -/
theorem C137_latitudes_partial (t p : F) (dataLat poleLat : Arg k F)
    (hl : dataLat.isArr = true ∨ poleLat.isArr = true)
    (hm : ∀ x y : ℝ, t = some x → p = some y → ∀ j : ℤ, y ≠ x + 12 * j) :
    ∃ o, angleMix (.one t) dataLat (.one p) poleLat = .ok o ∧ AngleEach (.one t) dataLat (.one p) poleLat o := by
  have out_many : ∀ {γ : Type} (g : F → F → γ), (Arg.zip g dataLat poleLat).out
      = .flat (List.ofFn fun i => g (dataLat.val i) (poleLat.val i)) := by
    intro γ g
    have : (Arg.zip g dataLat poleLat).isArr = true := by
      rw [zip_arr]; rcases hl with h | h <;> simp [h]
    rw [arr_eq this, List.ofFn_eq_map]
    show Out.flat _ = _
    congr 2
    funext i
    exact zip_val g _ _ i
  cases t with
  | none =>
    refine ⟨_, by cases p <;> rfl, fun _ => none, out_many _, fun i => ?_⟩
    show poleAngle none _ p _ = _
    cases p <;> rfl
  | some x =>
    cases p with
    | none => exact ⟨_, rfl, fun _ => none, out_many _, fun i => rfl⟩
    | some y =>
      have hs : Real.sin (hourAngle (y - x)) ≠ 0 := fun h => by
        obtain ⟨j, hj⟩ := sin_hour_zero.1 h
        exact hm x y rfl rfl j hj
      have h1 := (delLong_special (y - x)).not.2 hs
      refine ⟨.flat (List.ofFn fun i => triF (delLong (y - x)) (dataLat.val i) (poleLat.val i)), ?_,
        fun i => triF (delLong (y - x)) (dataLat.val i) (poleLat.val i), rfl, fun i => ?_⟩
      · show (do
          let dl ← hr2rad (y - x) Real.pi
          if dl = -Real.pi ∨ dl = 0 ∨ dl = Real.pi then _ else _ : Except PyErr (Out F)) = _
        rw [hr2rad_ok]
        simp only [bind, Except.bind, pure, Except.pure]
        rw [delLong] at h1
        rw [if_neg h1, out_many]
        rfl
      · show poleAngle (some x) (dataLat.val i) (some y) (poleLat.val i) = _
        unfold poleAngle ltDiff
        simp only [hr2rad_ok, bind, Except.bind, pure, Except.pure]
        rw [delLong] at h1
        rw [if_neg h1]
        cases dataLat.val i <;> cases poleLat.val i <;> rfl

/-- C137 is false on the meridian of the pole: for single local times, a multiple of 12 h apart, and an array of
latitudes the call raises, although each of its entries has an angle; only an array of one entry is accepted, and gives
a single value in place of an array. -/
theorem C137_meridian_refuted (t p : ℝ) (j : ℤ) (hj : p = t + 12 * j) (dataLat poleLat : Arg k F)
    (hl : dataLat.isArr = true ∨ poleLat.isArr = true) :
    (∀ i, ∃ x, poleAngle (some t) (dataLat.val i) (some p) (poleLat.val i) = .ok (some x) ∧ (x = 0 ∨ x = 180)) ∧
    (k ≠ 1 → angleMix (.one (some t)) dataLat (.one (some p)) poleLat = .error .valueError) ∧
    (k = 1 → ∃ x, angleMix (.one (some t)) dataLat (.one (some p)) poleLat = .ok (.one (some x))) := by
  have hs : Real.sin (hourAngle (p - t)) = 0 := sin_hour_zero.2 ⟨j, hj⟩
  have h1 := (delLong_special (p - t)).2 hs
  have hz : (Arg.zip (fun a b : F => gtF (a.map abs) (b.map abs)) dataLat poleLat).isArr = true := by
    rw [zip_arr]; rcases hl with h | h <;> simp [h]
  have e : angleMix (.one (some t)) dataLat (.one (some p)) poleLat =
      (do let b ← truth (Arg.zip (fun a b => gtF (a.map abs) (b.map abs)) dataLat poleLat)
          return .one (some (if b then 180 else 0))) := by
    show (do
      let dl ← hr2rad (p - t) Real.pi
      if dl = -Real.pi ∨ dl = 0 ∨ dl = Real.pi then _ else _ : Except PyErr (Out F)) = _
    rw [hr2rad_ok]
    simp only [bind, Except.bind]
    rw [delLong] at h1
    rw [if_pos h1]
  refine ⟨fun i => ?_, fun hk => ?_, fun hk => ?_⟩
  · refine ⟨if gtF ((dataLat.val i).map abs) ((poleLat.val i).map abs) then 180 else 0, ?_, by split_ifs <;> simp⟩
    unfold poleAngle ltDiff
    simp only [hr2rad_ok, bind, Except.bind, pure, Except.pure]
    rw [delLong] at h1
    rw [if_pos h1]
  · rw [e, arr_eq hz, truth, dif_neg hk]
    rfl
  · rw [e, arr_eq hz, truth, dif_pos hk]
    exact ⟨_, rfl⟩

/-- A scan in latitude along the meridian of the pole: two latitudes, local time 6 h, pole at 18 h. -/
example : angleMix (k := 2) (.one (some 6)) (.many ![some 60, some 70]) (.one (some 18)) (.one (some 85))
    = .error .valueError :=
  (C137_meridian_refuted 6 18 1 (by norm_num) _ _ (.inl rfl)).2.1 (by decide)

/-- The same latitudes an hour further are accepted. -/
example : ∃ o, angleMix (k := 2) (.one (some 7)) (.many ![some 60, some 70]) (.one (some 18)) (.one (some 85)) = .ok o ∧
    AngleEach (.one (some 7)) (.many ![some 60, some 70]) (.one (some 18)) (.one (some 85)) o :=
  C137_latitudes_partial _ _ _ _ (.inl rfl) (fun x y hx hy j h => by
    cases hx; cases hy
    have h2 : (11 : ℝ) = 12 * j := by linarith
    have h3 : (11 : ℤ) = 12 * j := by exact_mod_cast h2
    omega)

/-- Two local times with one latitude of the data and one pole. -/
example : ∃ o, angleMix (k := 2) (.many ![some 6, some 7]) (.one (some 60)) (.one (some 18)) (.one (some 85)) = .ok o ∧
    AngleEach (.many ![some 6, some 7]) (.one (some 60)) (.one (some 18)) (.one (some 85)) o :=
  C137_local_times _ _ _ _ (.inl rfl) (fun i => by simp [Arg.val]) (fun i => by simp [Arg.val])

/-! ## C138: the quadrants -/

/-- C138 for vectors: a single quadrant for a single vector, otherwise one per entry, by the signs of the components. -/
theorem C138_vectors (n e : Arg k F) :
    ((vectQuadMix n e).isArr = true ↔ n.isArr = true ∨ e.isArr = true) ∧
    (∀ i x y q, n.val i = some x → e.val i = some y → ((vectQuadMix n e).val i = q ↔ VectQ x y q)) ∧
    (∀ i, (vectQuadMix n e).val i = 0 ↔ n.val i = none ∨ e.val i = none) := by
  unfold vectQuadMix
  refine ⟨by rw [zip_arr]; simp, fun i x y q hx hy => ?_, fun i => ?_⟩
  · rw [zip_val, hx, hy]; exact C41_vector_quadrant x y q
  · rw [zip_val]; exact (C41_vector_quadrant_nan _ _).1

/-- C138 for poles with an array among the local times: one quadrant per entry, the documented one. -/
theorem C138_poles (dataLt poleLt ang : Arg k F) (ht : dataLt.isArr = true ∨ poleLt.isArr = true) :
    (poleQuadMix dataLt poleLt ang).isArr = true ∧
    ∀ i d p a q, dataLt.val i = some d → poleLt.val i = some p → ang.val i = some a →
      ((poleQuadMix dataLt poleLt ang).val i = q ↔ PoleQ d p a q) := by
  have e : poleQuadMix dataLt poleLt ang = .many fun i => poleQuad (dataLt.val i) (poleLt.val i) (ang.val i) := by
    cases dataLt <;> cases poleLt <;> first | rfl | (rcases ht with h | h <;> cases h)
  rw [e]
  refine ⟨rfl, fun i d p a q hd hp ha => ?_⟩
  show poleQuad _ _ _ = q ↔ _
  rw [hd, hp, ha]
  exact C41_pole_quadrant d p a q

theorem collapse_eq (qs : List ℤ) (h : qs ≠ []) (q : ℤ) (hq : 1 ≤ q ∧ q ≤ 4) : collapse qs = q ↔ ∀ x ∈ qs, x = q := by
  obtain ⟨a, l, rfl⟩ := List.exists_cons_of_ne_nil h
  unfold collapse
  simp only [List.all_cons, Bool.and_eq_true, decide_eq_true_eq, List.all_eq_true, List.forall_mem_cons]
  obtain ⟨h1, h2⟩ := hq
  constructor
  · intro hc
    split_ifs at hc with c1 c2 c3 c4
    · rw [← hc]; exact c1
    · rw [← hc]; exact c2
    · rw [← hc]; exact c3
    · rw [← hc]; exact c4
    · omega
  · rintro ⟨c, d⟩
    rw [c]
    interval_cases q <;> simp <;> simpa using d

theorem collapse_zero (qs : List ℤ) (x y : ℤ) (hx : x ∈ qs) (hy : y ∈ qs) (h : x ≠ y) : collapse qs = 0 := by
  unfold collapse
  have no : ∀ q : ℤ, ¬ qs.all (fun z => decide (z = q)) = true := fun q hq => by
    rw [List.all_eq_true] at hq
    have a := hq x hx
    have b := hq y hy
    simp only [decide_eq_true_eq] at a b
    exact h (a.trans b.symm)
  rw [if_neg (no 1), if_neg (no 2), if_neg (no 3), if_neg (no 4)]

/-- A single local time of the data and of the pole and single angle: the documented quadrant. -/
theorem C138_single (d p a : ℝ) (q : ℤ) :
    poleQuadMix (k := k) (.one (some d)) (.one (some p)) (.one (some a)) = .one q ↔ PoleQ d p a q := by
  rw [← C41_pole_quadrant]
  show Arg.one (collapse [poleQuad (some d) (some p) (some a)]) = .one q ↔ _
  have h1 := (C41_pole_quadrant d p a _).1 rfl
  have hr : 1 ≤ poleQuad (some d) (some p) (some a) ∧ poleQuad (some d) (some p) (some a) ≤ 4 := by
    obtain ⟨_, _, h⟩ := h1
    rcases h with ⟨c, -⟩ | ⟨c, -⟩ | ⟨c, -⟩ | ⟨c, -⟩ <;> rw [c] <;> decide
  rw [(collapse_eq _ (by simp) _ hr).2 (by simp)]
  constructor
  · intro h; injection h
  · intro h; rw [h]

/-- C138 is false for single local times and an array of angles: a single quadrant is returned, and it is 0 ("undefined")
as soon as one angle is below 90 degrees and another is not, although each has a quadrant. -/
theorem C138_angles_refuted (d p a b : ℝ) (f : Fin k → F) (i j : Fin k) (hi : f i = some a) (hj : f j = some b)
    (ha : a < 90) (hb : 90 ≤ b) :
    poleQuadMix (.one (some d)) (.one (some p)) (.many f) = .one 0 ∧
    (∃ q r, PoleQ d p a q ∧ PoleQ d p b r ∧ q ≠ r ∧ q ≠ 0 ∧ r ≠ 0) := by
  have qa := poleQuad_spec d p a
  have qb := poleQuad_spec d p b
  have hne : poleQuad (some d) (some p) (some a) ≠ poleQuad (some d) (some p) (some b) ∧
      poleQuad (some d) (some p) (some a) ≠ 0 ∧ poleQuad (some d) (some p) (some b) ≠ 0 := by
    obtain ⟨x, hx, c⟩ := qa
    obtain ⟨y, hy, c'⟩ := qb
    rcases c with ⟨c, c1, c2⟩ | ⟨c, c1, c2⟩ | ⟨c, c1, c2⟩ | ⟨c, c1, c2⟩ <;> rw [c] <;>
    rcases c' with ⟨d, d1, d2⟩ | ⟨d, d1, d2⟩ | ⟨d, d1, d2⟩ | ⟨d, d1, d2⟩ <;> rw [d] <;>
    first
    | (refine ⟨?_, ?_, ?_⟩ <;> decide)
    | (exfalso; linarith)
  refine ⟨?_, _, _, qa, qb, hne.1, hne.2.1, hne.2.2⟩
  show Arg.one (collapse _) = _
  rw [collapse_zero _ (poleQuad (some d) (some p) (some a)) (poleQuad (some d) (some p) (some b)) ?_ ?_ hne.1]
  · rw [List.mem_map]; exact ⟨i, List.mem_finRange i, by rw [hi]⟩
  · rw [List.mem_map]; exact ⟨j, List.mem_finRange j, by rw [hj]⟩

/-- Angles of 60 and 120 degrees at one local time. -/
example : poleQuadMix (k := 2) (.one (some 3)) (.one (some 22)) (.many ![some 60, some 120]) = .one 0 :=
  (C138_angles_refuted 3 22 60 120 _ 0 1 rfl rfl (by norm_num) (by norm_num)).1

end Ocb.Mix
