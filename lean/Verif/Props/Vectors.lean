import Verif.Spec.Vectors
import Verif.Lemmas.Vectors
import Verif.Lemmas.Basic

/-!
# Properties of `vectors.py` (C40-C46)
-/

set_option autoImplicit false

namespace Ocb.Vec

open Real Ocb.Time Ocb.Coord

/-! ## C41: quadrants -/

theorem ahead_unique {d p h h' : ℝ} (a : Ahead d p h) (b : Ahead d p h') : h = h' := by
  obtain ⟨⟨k, hk⟩, h1, h2⟩ := a
  obtain ⟨⟨l, hl⟩, h3, h4⟩ := b
  have e : h - h' = 24 * ((k - l : ℤ) : ℝ) := by rw [hk, hl]; push_cast; ring
  have u : ((k - l : ℤ) : ℝ) < 1 := by linarith
  have w : (-1 : ℝ) < ((k - l : ℤ) : ℝ) := by linarith
  have u' : k - l < 1 := by exact_mod_cast u
  have w' : -1 < k - l := by exact_mod_cast w
  have : k - l = 0 := by omega
  rw [this] at e
  simp at e
  linarith

theorem loops_ahead (d p : ℝ) : Ahead d p (largeLoop (addLoop 0 24 (p - d))) := by
  obtain ⟨⟨n, hn⟩, h1, -⟩ := addLoop_spec (0 : ℝ) 24 (p - d) (by norm_num)
  obtain ⟨k, hk, h2, h3⟩ := largeLoop_spec _ h1
  exact ⟨⟨n + k, by rw [hk, hn]; push_cast; ring⟩, h2, h3⟩

theorem poleQ_unique {d p a : ℝ} {q q' : ℤ} (h : PoleQ d p a q) (h' : PoleQ d p a q') : q = q' := by
  obtain ⟨x, hx, c⟩ := h
  obtain ⟨y, hy, c'⟩ := h'
  obtain rfl := ahead_unique hx hy
  rcases c with ⟨rfl, _, _⟩ | ⟨rfl, _, _⟩ | ⟨rfl, _, _⟩ | ⟨rfl, _, _⟩ <;>
  rcases c' with ⟨rfl, _, _⟩ | ⟨rfl, _, _⟩ | ⟨rfl, _, _⟩ | ⟨rfl, _, _⟩ <;>
  first | rfl | (exfalso; linarith)

theorem poleQuad_spec (d p a : ℝ) : PoleQ d p a (poleQuad (some d) (some p) (some a)) := by
  refine ⟨_, loops_ahead d p, ?_⟩
  unfold poleQuad ltDiff
  simp only
  generalize largeLoop (addLoop 0 24 (p - d)) = h
  rcases lt_or_ge a 90 with ha | ha <;> rcases lt_or_ge h 12 with hh | hh <;>
  simp [ha, hh, not_le.2, not_lt.2]

/-- C41: the pole quadrant is the documented one, and the only one. -/
theorem C41_pole_quadrant (d p a : ℝ) (q : ℤ) :
    poleQuad (some d) (some p) (some a) = q ↔ PoleQ d p a q :=
  ⟨fun h => h ▸ poleQuad_spec d p a, fun h => poleQ_unique (poleQuad_spec d p a) h⟩

/-- C41: the pole quadrant is one of 1-4 for numbers, and 0 exactly when an input is NaN. -/
theorem C41_pole_quadrant_nan (d p a : Option ℝ) :
    (poleQuad d p a = 0 ↔ d = none ∨ p = none ∨ a = none) ∧ 0 ≤ poleQuad d p a ∧ poleQuad d p a ≤ 4 := by
  cases d with
  | none => cases p <;> simp [poleQuad, ltDiff]
  | some d =>
    cases p with
    | none => simp [poleQuad, ltDiff]
    | some p =>
      cases a with
      | none => simp [poleQuad, ltDiff]
      | some a =>
        obtain ⟨h, -, c⟩ := poleQuad_spec d p a
        rcases c with ⟨c, -⟩ | ⟨c, -⟩ | ⟨c, -⟩ | ⟨c, -⟩ <;> simp [c]

/-- C41: local times count modulo 24 hours. -/
theorem C41_pole_quadrant_period (d p a : ℝ) (j k : ℤ) :
    poleQuad (some (d + 24 * j)) (some (p + 24 * k)) (some a) = poleQuad (some d) (some p) (some a) := by
  rw [C41_pole_quadrant]
  obtain ⟨h, ⟨⟨l, hl⟩, h1, h2⟩, c⟩ := poleQuad_spec d p a
  exact ⟨h, ⟨⟨l + j - k, by rw [hl]; push_cast; ring⟩, h1, h2⟩, c⟩

/-- C41: the vector quadrant is the documented one, and the only one. -/
theorem C41_vector_quadrant (n e : ℝ) (q : ℤ) : vectQuad (some n) (some e) = q ↔ VectQ n e q := by
  unfold vectQuad VectQ
  simp only
  rcases lt_or_ge n 0 with hn | hn <;> rcases lt_or_ge e 0 with he | he <;>
  simp [hn, he, not_le.2, not_lt.2, eq_comm]

/-- C41: 0 exactly for NaN components. -/
theorem C41_vector_quadrant_nan (n e : Option ℝ) :
    (vectQuad n e = 0 ↔ n = none ∨ e = none) ∧ 0 ≤ vectQuad n e ∧ vectQuad n e ≤ 4 := by
  cases n with
  | none => simp [vectQuad]
  | some n =>
    cases e with
    | none => simp [vectQuad]
    | some e =>
      rcases (C41_vector_quadrant n e _).1 rfl with ⟨c, -⟩ | ⟨c, -⟩ | ⟨c, -⟩ | ⟨c, -⟩ <;> simp [c]

/-- Data at 23 h, pole at 2 h, three hours to the east across midnight. -/
example : poleQuad (some 23) (some 2) (some 30) = 1 := by
  rw [C41_pole_quadrant]
  exact ⟨3, ⟨⟨1, by norm_num⟩, by norm_num, by norm_num⟩, .inl ⟨rfl, by norm_num, by norm_num⟩⟩

/-! ## C46: destination polar angle -/

/-- C46: for every quadrant pair that fits the angles the destination polar angle is in `[0, 180]`, whatever the
other entries of the array are. -/
theorem C46_range (xs : List (ℤ × ℤ × Option ℝ × Option ℝ)) (i : ℕ) (pq vq : ℤ) (b p : ℝ)
    (hx : xs[i]? = some (pq, vq, some b, some p)) (hp : Half pq p) (hv : Half vq b) :
    ∃ out d, destPolarAngle xs = .ok out ∧ out[i]? = some (some d) ∧ 0 ≤ d ∧ d ≤ 180 := by
  obtain ⟨d, hd, h0, h1, -⟩ := table_spec hp hv
  have hm : (pq, vq, some b, some p) ∈ xs := List.mem_of_getElem? hx
  have hin : ∀ {q : ℤ} {a : ℝ}, Half q a → inQuads q = true := by
    rintro q a (⟨rfl | rfl, -⟩ | ⟨rfl | rfl, -⟩) <;> decide
  refine ⟨xs.map fun x => destPolarEntry x.1 x.2.1 x.2.2.1 x.2.2.2, d, ?_, ?_, h0, h1⟩
  · unfold destPolarAngle
    rw [if_neg, if_neg]
    · rw [not_not, List.any_eq_true]
      exact ⟨_, hm, hin hv⟩
    · rw [not_not, List.any_eq_true]
      exact ⟨_, hm, hin hp⟩
  · rw [List.getElem?_map, hx]
    simp [destPolarEntry, hd]

/-- C46: it raises exactly when no pole quadrant or no vector quadrant is defined. -/
theorem C46_raises (xs : List (ℤ × ℤ × Option ℝ × Option ℝ)) :
    destPolarAngle xs = .error .valueError ↔
      (∀ x ∈ xs, ¬ (1 ≤ x.1 ∧ x.1 ≤ 4)) ∨ (∀ x ∈ xs, ¬ (1 ≤ x.2.1 ∧ x.2.1 ≤ 4)) := by
  have e1 : xs.any (fun x => inQuads x.1) = true ↔ ¬ ∀ x ∈ xs, ¬ (1 ≤ x.1 ∧ x.1 ≤ 4) := by
    rw [List.any_eq_true]; unfold inQuads; push Not; simp only [decide_eq_true_eq]
  have e2 : xs.any (fun x => inQuads x.2.1) = true ↔ ¬ ∀ x ∈ xs, ¬ (1 ≤ x.2.1 ∧ x.2.1 ≤ 4) := by
    rw [List.any_eq_true]; unfold inQuads; push Not; simp only [decide_eq_true_eq]
  unfold destPolarAngle
  by_cases c1 : xs.any (fun x => inQuads x.1) = true
  · by_cases c2 : xs.any (fun x => inQuads x.2.1) = true
    · rw [if_neg (not_not.2 c1), if_neg (not_not.2 c2)]
      rw [e1] at c1
      rw [e2] at c2
      simp only [reduceCtorEq, false_iff]
      tauto
    · rw [if_neg (not_not.2 c1), if_pos c2]
      rw [e2] at c2
      tauto
  · rw [if_pos c1]
    rw [e1] at c1
    tauto

/-- C46: the destination polar angle is the angle between the two directions: its cosine is that of the difference
of the two bearings. -/
theorem C46_is_difference (pq vq : ℤ) (b p : ℝ) (hp : Half pq p) (hv : Half vq b) :
    ∃ d, destPolarAngle [(pq, vq, some b, some p)] = .ok [some d] ∧
      cos (radians d) = cos (radians (azim vq b - azim pq p)) := by
  obtain ⟨d, hd, h0, h1, -, h2, h3⟩ := table_spec hp hv
  have hin : ∀ {q : ℤ} {a : ℝ}, Half q a → inQuads q = true := by
    rintro q a (⟨rfl | rfl, -⟩ | ⟨rfl | rfl, -⟩) <;> decide
  refine ⟨d, ?_, (turn h2 h3).1⟩
  simp [destPolarAngle, hin hp, hin hv, destPolarEntry, hd]

/-- A pole 100 degrees and a vector 150 degrees from north, on opposite sides. -/
example : Half 3 100 ∧ Half 4 150 := ⟨.inr ⟨.inl rfl, by norm_num, by norm_num⟩, .inr ⟨.inr rfl, by norm_num, by norm_num⟩⟩

/-! ## C42: the rotation -/

/-- A vector entry of numbers in the general case, its quadrants either left to the code (0) or the documented ones.
`A` is the bearing of the destination pole. -/
structure Regular (x : VIn) (n e p A : ℝ) : Prop where
  north : x.n = some n
  east : x.e = some e
  ang : x.ang = some p
  nonzero : ¬ (n = 0 ∧ e = 0)
  pos : 0 < p
  lt180 : p < 180
  vq : x.vq = 0 ∨ VectQ n e x.vq
  pole : ∃ d l, x.lt = some d ∧ x.poleLt = some l ∧ Bearing d l p A ∧ (x.pq = 0 ∨ PoleQ d l p x.pq)

theorem Regular.isNorm {x : VIn} {n e p A : ℝ} (h : Regular x n e p A) : x.IsNorm := by
  unfold VIn.IsNorm VIn.IsZero VIn.IsNs
  rw [h.north, h.east, h.ang]
  have h1 := h.pos
  have h2 := h.lt180
  have h3 := h.nonzero
  simp only [Option.some.injEq]
  rintro (⟨ha, hb⟩ | ha | ha)
  · exact h3 ⟨ha, hb⟩
  · linarith
  · linarith

theorem bearing_quad {d l p A : ℝ} (h0 : 0 ≤ p) (h1 : p ≤ 180) (h : Bearing d l p A) :
    Half (poleQuad (some d) (some l) (some p)) p ∧ azim (poleQuad (some d) (some l) (some p)) p = A := by
  obtain ⟨y, hy, c⟩ := poleQuad_spec d l p
  obtain ⟨z, hz, c'⟩ := h
  obtain rfl := ahead_unique hy hz
  unfold Half azim
  rcases c with ⟨c, c1, c2⟩ | ⟨c, c1, c2⟩ | ⟨c, c1, c2⟩ | ⟨c, c1, c2⟩ <;> rw [c] <;>
  rcases c' with ⟨d1, d2⟩ | ⟨d1, d2⟩ <;>
  first
  | (exfalso; linarith)
  | (rw [d2]; simp; constructor <;> linarith)

theorem Regular.quads {x : VIn} {n e p A : ℝ} (h : Regular x n e p A) :
    (∀ vq, vq = x.vq ∨ vq = vectQuad x.n x.e → vq ≠ 0 → vq = vectQuad (some n) (some e)) ∧
    (∀ pq, pq = x.pq ∨ pq = poleQuad x.lt x.poleLt x.ang → pq ≠ 0 → Half pq p ∧ azim pq p = A) := by
  obtain ⟨d, l, hd, hl, hb, hq⟩ := h.pole
  constructor
  · rintro vq (hv | hv) h0
    · rcases h.vq with h1 | h1
      · rw [h1] at hv; exact absurd hv h0
      · rw [hv]; exact ((C41_vector_quadrant n e _).2 h1).symm
    · rw [hv, h.north, h.east]
  · rintro pq (hp | hp) h0
    · rcases hq with h1 | h1
      · rw [h1] at hp; exact absurd hp h0
      · rw [hp, ← (C41_pole_quadrant d l p _).2 h1]
        exact bearing_quad h.pos.le h.lt180.le hb
    · rw [hp, hd, hl, h.ang]
      exact bearing_quad h.pos.le h.lt180.le hb

theorem half_in {q : ℤ} {a : ℝ} (h : Half q a) : inQuads q = true := by
  rcases h with ⟨rfl | rfl, -⟩ | ⟨rfl | rfl, -⟩ <;> decide

theorem vectQuad_in (n e : ℝ) : inQuads (vectQuad (some n) (some e)) = true := by
  rcases (C41_vector_quadrant n e _).1 rfl with ⟨c, -⟩ | ⟨c, -⟩ | ⟨c, -⟩ | ⟨c, -⟩ <;> rw [c] <;> decide

/-- What the claim asks of the result: the components along the direction of the destination pole and along the
direction 90 degrees clockwise of it, and the vertical component unchanged. -/
def Rotated (x : VIn) (n e A : ℝ) (o : VOut) : Prop :=
  o = (some (along A n e), some (along (A + 90) n e), x.z)

theorem normOut_rotated (nanZ : Bool) {x : VIn} {n e p A : ℝ} {pq : ℤ} (h : Regular x n e p A)
    (hq : Half pq p) (ha : azim pq p = A) : Rotated x n e A (normOut nanZ pq (vectQuad (some n) (some e)) x) := by
  rw [Rotated, normOut_rot nanZ h.north h.east h.ang h.nonzero hq, ha]
  have e1 : (A + 90) * π / 180 = A * π / 180 + π / 2 := by ring
  unfold along radians
  rw [e1, cos_add_pi_div_two, sin_add_pi_div_two]
  congr 3
  ring

/-- C42 for one vector. -/
theorem C42_rotation_single (x : VIn) (n e p A : ℝ) (h : Regular x n e p A) :
    ∃ o, adjustOne x = .ok o ∧ Rotated x n e A o := by
  obtain ⟨h1, h2⟩ := h.quads
  obtain ⟨d, l, hd, hl, hb, hq⟩ := h.pole
  have hvq : (if x.vq = 0 then vectQuad x.n x.e else x.vq) = vectQuad (some n) (some e) := by
    split_ifs with c
    · rw [h.north, h.east]
    · exact h1 _ (.inl rfl) c
  have hpq : Half (if x.pq = 0 then poleQuad x.lt x.poleLt x.ang else x.pq) p ∧
      azim (if x.pq = 0 then poleQuad x.lt x.poleLt x.ang else x.pq) p = A := by
    split_ifs with c
    · rw [hd, hl, h.ang]; exact bearing_quad h.pos.le h.lt180.le hb
    · exact h2 _ (.inl rfl) c
  refine ⟨_, ?_, normOut_rotated false h hpq.1 hpq.2⟩
  unfold adjustOne
  rw [if_pos h.isNorm]
  simp only
  rw [hvq, half_in hpq.1, vectQuad_in]
  simp

/-- C42 for one vector whose quadrants are given: any of the sixteen combinations that fit the angles. -/
theorem C42_rotation_given_quadrants (x : VIn) (n e p : ℝ) (hn : x.n = some n) (he : x.e = some e)
    (hp : x.ang = some p) (h0 : ¬ (n = 0 ∧ e = 0)) (h1 : 0 < p) (h2 : p < 180) (hv : VectQ n e x.vq)
    (hq : Half x.pq p) : ∃ o, adjustOne x = .ok o ∧ Rotated x n e (azim x.pq p) o := by
  have hvq := (C41_vector_quadrant n e _).2 hv
  have hN : x.IsNorm := by
    unfold VIn.IsNorm VIn.IsZero VIn.IsNs
    rw [hn, he, hp]
    simp only [Option.some.injEq]
    rintro (⟨ha, hb⟩ | ha | ha)
    · exact h0 ⟨ha, hb⟩
    · linarith
    · linarith
  have v0 : x.vq ≠ 0 := by rcases hv with ⟨c, -⟩ | ⟨c, -⟩ | ⟨c, -⟩ | ⟨c, -⟩ <;> rw [c] <;> decide
  have p0 : x.pq ≠ 0 := by rcases hq with ⟨c | c, -⟩ | ⟨c | c, -⟩ <;> rw [c] <;> decide
  refine ⟨normOut false x.pq x.vq x, ?_, ?_⟩
  · unfold adjustOne
    rw [if_pos hN]
    simp only
    rw [if_neg v0, if_neg p0, half_in hq, ← hvq, vectQuad_in]
    simp
  · rw [← hvq, Rotated, normOut_rot false hn he hp h0 hq]
    have e1 : (azim x.pq p + 90) * π / 180 = azim x.pq p * π / 180 + π / 2 := by ring
    unfold along radians
    rw [e1, cos_add_pi_div_two, sin_add_pi_div_two]
    congr 3
    ring

open Classical in
/-- What `adjustArr` does at one entry. -/
theorem adjustArr_at (xs : List VIn) (x : VIn) (hx : x ∈ xs) (hN : x.IsNorm)
    (hp : ∀ pq, pq = x.pq ∨ pq = poleQuad x.lt x.poleLt x.ang → pq ≠ 0 → inQuads pq = true)
    (hp0 : poleQuad x.lt x.poleLt x.ang ≠ 0)
    (hv : ∀ vq, vq = x.vq ∨ vq = vectQuad x.n x.e → vq ≠ 0 → inQuads vq = true)
    (hv0 : vectQuad x.n x.e ≠ 0) :
    ∃ P V : VIn → ℤ, adjustArr xs = .ok (xs.map fun x => if x.IsNorm then normOut true (P x) (V x) x else specialOut x) ∧
      (P x = x.pq ∨ P x = poleQuad x.lt x.poleLt x.ang) ∧ P x ≠ 0 ∧
      (V x = x.vq ∨ V x = vectQuad x.n x.e) ∧ V x ≠ 0 := by
  let V : VIn → ℤ := if xs.any (fun x => decide (x.IsNorm ∧ x.vq = 0)) then fun x => vectQuad x.n x.e else VIn.vq
  let P : VIn → ℤ := if xs.any (fun x => decide (x.IsNorm ∧ x.pq = 0)) then
      fun x => poleQuad x.lt x.poleLt x.ang else VIn.pq
  have hV : (V x = x.vq ∨ V x = vectQuad x.n x.e) ∧ V x ≠ 0 := by
    by_cases c : xs.any (fun x => decide (x.IsNorm ∧ x.vq = 0)) = true
    · have : V = fun x => vectQuad x.n x.e := if_pos c
      rw [this]
      exact ⟨.inr rfl, hv0⟩
    · have : V = VIn.vq := if_neg c
      rw [this]
      refine ⟨.inl rfl, fun h0 => c ?_⟩
      rw [List.any_eq_true]
      exact ⟨x, hx, by simp [hN, h0]⟩
  have hP : (P x = x.pq ∨ P x = poleQuad x.lt x.poleLt x.ang) ∧ P x ≠ 0 := by
    by_cases c : xs.any (fun x => decide (x.IsNorm ∧ x.pq = 0)) = true
    · have : P = fun x => poleQuad x.lt x.poleLt x.ang := if_pos c
      rw [this]
      exact ⟨.inr rfl, hp0⟩
    · have : P = VIn.pq := if_neg c
      rw [this]
      refine ⟨.inl rfl, fun h0 => c ?_⟩
      rw [List.any_eq_true]
      exact ⟨x, hx, by simp [hN, h0]⟩
  refine ⟨P, V, ?_, hP.1, hP.2, hV.1, hV.2⟩
  have hany : xs.any (fun x => decide x.IsNorm) = true := by
    rw [List.any_eq_true]; exact ⟨x, hx, by simp [hN]⟩
  have hPa : xs.any (fun x => inQuads (P x)) = true := by
    rw [List.any_eq_true]; exact ⟨x, hx, hp _ hP.1 hP.2⟩
  have hVa : xs.any (fun x => inQuads (V x)) = true := by
    rw [List.any_eq_true]; exact ⟨x, hx, hv _ hV.1 hV.2⟩
  unfold adjustArr
  rw [if_pos hany]
  show (if ¬ xs.any (fun x => inQuads (P x)) = true then _ else if ¬ xs.any (fun x => inQuads (V x)) = true then _ else _) = _
  rw [if_neg (not_not.2 hPa), if_neg (not_not.2 hVa)]

/-- C42 for arrays: at every entry in the general case, whatever the other entries hold. -/
theorem C42_rotation_array (xs : List VIn) (i : ℕ) (x : VIn) (n e p A : ℝ) (hx : xs[i]? = some x)
    (h : Regular x n e p A) :
    ∃ out o, adjustArr xs = .ok out ∧ out[i]? = some o ∧ Rotated x n e A o := by
  obtain ⟨h1, h2⟩ := h.quads
  obtain ⟨d, l, hd, hl, hb, hq⟩ := h.pole
  have hb' := bearing_quad h.pos.le h.lt180.le hb
  have hp0 : poleQuad x.lt x.poleLt x.ang ≠ 0 := by
    rw [hd, hl, h.ang]
    rcases hb'.1 with ⟨c | c, -⟩ | ⟨c | c, -⟩ <;> rw [c] <;> decide
  have hv0 : vectQuad x.n x.e ≠ 0 := by
    rw [h.north, h.east]
    rcases (C41_vector_quadrant n e _).1 rfl with ⟨c, -⟩ | ⟨c, -⟩ | ⟨c, -⟩ | ⟨c, -⟩ <;> rw [c] <;> decide
  obtain ⟨P, V, hr, hP, hP0, hV, hV0⟩ := adjustArr_at xs x (List.mem_of_getElem? hx) h.isNorm
    (fun pq hh h0 => half_in (h2 pq hh h0).1) hp0
    (fun vq hh h0 => by rw [h1 vq hh h0]; exact vectQuad_in n e) hv0
  refine ⟨_, normOut true (P x) (V x) x, hr, ?_, ?_⟩
  · rw [List.getElem?_map, hx]
    simp [h.isNorm]
  · rw [h1 _ hV hV0]
    exact normOut_rotated true h (h2 _ hP hP0).1 (h2 _ hP hP0).2

/-- A vector at 3 h whose pole is at 22 h: five hours to the west, 40 degrees from north; quadrants left to the code. -/
example : Regular ⟨some 3, some 70, some (-1), some 2, some 5, 0, some 22, some 80, some 40, 0⟩ (-1) 2 40 (-40) where
  north := rfl
  east := rfl
  ang := rfl
  nonzero := by norm_num
  pos := by norm_num
  lt180 := by norm_num
  vq := .inl rfl
  pole := ⟨3, 22, rfl, rfl, ⟨19, ⟨⟨0, by norm_num⟩, by norm_num, by norm_num⟩, .inr ⟨by norm_num, by norm_num⟩⟩, .inl rfl⟩

/-! ## C43: magnitude -/

theorem special_mag {x : VIn} {n e n' e' : ℝ} {z' : Option ℝ} (hN : ¬ x.IsNorm) (hn : x.n = some n) (he : x.e = some e)
    (h : specialOut x = (some n', some e', z')) : n' ^ 2 + e' ^ 2 = n ^ 2 + e ^ 2 := by
  classical
  unfold specialOut at h
  simp only at h
  unfold VIn.IsNorm at hN
  by_cases h1 : x.IsNs
  · by_cases h2 : x.SignFlip
    · simp [h1, h2, hn, he] at h
      rw [← h.1, ← h.2.1]; ring
    · simp [h1, h2, hn, he] at h
      rw [h.1, h.2.1]
  · have hz : x.IsZero := by tauto
    simp [h1, hz] at h
    have hz1 := hz.1
    have hz2 := hz.2
    rw [hn] at hz1
    rw [he] at hz2
    simp at hz1 hz2
    rw [← h.1, ← h.2.1, hz1, hz2]

/-- C43 for one vector: whatever the quadrants and the pole, adjusted components that are numbers have the magnitude
of the original. -/
theorem C43_magnitude_single (x : VIn) (n e n' e' : ℝ) (z' : Option ℝ) (hn : x.n = some n) (he : x.e = some e)
    (h : adjustOne x = .ok (some n', some e', z')) : n' ^ 2 + e' ^ 2 = n ^ 2 + e ^ 2 := by
  classical
  unfold adjustOne at h
  by_cases h1 : x.IsNorm
  · rw [if_pos h1] at h
    simp only at h
    generalize (if x.vq = 0 then vectQuad x.n x.e else x.vq) = vq at h
    generalize (if x.pq = 0 then poleQuad x.lt x.poleLt x.ang else x.pq) = pq at h
    split_ifs at h
    exact normOut_mag false hn he (Except.ok.inj h)
  · rw [if_neg h1] at h
    exact special_mag h1 hn he (Except.ok.inj h)

/-- C43 for arrays. -/
theorem C43_magnitude_array (xs : List VIn) (out : List VOut) (i : ℕ) (x : VIn) (n e n' e' : ℝ) (z' : Option ℝ)
    (h : adjustArr xs = .ok out) (hx : xs[i]? = some x) (hn : x.n = some n) (he : x.e = some e)
    (ho : out[i]? = some (some n', some e', z')) : n' ^ 2 + e' ^ 2 = n ^ 2 + e ^ 2 := by
  classical
  unfold adjustArr at h
  by_cases h1 : xs.any (fun x => decide x.IsNorm) = true
  · rw [if_pos h1] at h
    simp only at h
    generalize (if (xs.any fun x => decide (x.IsNorm ∧ x.vq = 0)) = true then fun x => vectQuad x.n x.e
      else VIn.vq : VIn → ℤ) = V at h
    generalize (if (xs.any fun x => decide (x.IsNorm ∧ x.pq = 0)) = true then
      fun x => poleQuad x.lt x.poleLt x.ang else VIn.pq : VIn → ℤ) = P at h
    by_cases c1 : (xs.any fun x => inQuads (P x)) = true
    · rw [if_neg (not_not.2 c1)] at h
      by_cases c2 : (xs.any fun x => inQuads (V x)) = true
      · rw [if_neg (not_not.2 c2)] at h
        obtain rfl := (Except.ok.inj h).symm
        rw [List.getElem?_map, hx] at ho
        simp only [Option.map_some, Option.some.injEq] at ho
        split_ifs at ho with c
        · exact normOut_mag true hn he ho
        · exact special_mag c hn he ho
      · rw [if_pos c2] at h; cases h
    · rw [if_pos c1] at h; cases h
  · rw [if_neg h1] at h
    obtain rfl := (Except.ok.inj h).symm
    rw [List.getElem?_map, hx] at ho
    simp only [Option.map_some, Option.some.injEq] at ho
    refine special_mag (fun hc => h1 ?_) hn he ho
    rw [List.any_eq_true]
    exact ⟨x, List.mem_of_getElem? hx, by simpa using hc⟩

/-- C43: and they are numbers, in the general case and on the aligned meridian and for zero vectors. -/
theorem C43_numbers (x : VIn) (n e : ℝ) (hn : x.n = some n) (he : x.e = some e)
    (h : ¬ x.IsNorm ∨ ∃ p A, Regular x n e p A) :
    ∃ n' e' z', adjustOne x = .ok (some n', some e', z') ∧ n' ^ 2 + e' ^ 2 = n ^ 2 + e ^ 2 := by
  classical
  rcases h with h | ⟨p, A, h⟩
  · have : ∃ n' e' z', specialOut x = (some n', some e', z') := by
      unfold specialOut
      simp only
      unfold VIn.IsNorm at h
      by_cases h1 : x.IsNs
      · by_cases h2 : x.SignFlip
        · exact ⟨-n, -e, x.z, by simp [h1, h2, hn, he]⟩
        · exact ⟨n, e, x.z, by simp [h1, h2, hn, he]⟩
      · exact ⟨0, 0, some 0, by have : x.IsZero := by tauto
                                simp [h1, this]⟩
    obtain ⟨n', e', z', hs⟩ := this
    refine ⟨n', e', z', ?_, special_mag h hn he hs⟩
    unfold adjustOne
    rw [if_neg h, hs]
  · obtain ⟨o, ho, hr⟩ := C42_rotation_single x n e p A h
    rw [Rotated] at hr
    rw [hr] at ho
    exact ⟨_, _, _, ho, C43_magnitude_single x n e _ _ _ hn he ho⟩

/-! ## C44: vertical component -/

/-- C44 as far as it holds: with a horizontal part, or on the aligned meridian, the vertical component is kept.
Missing: purely vertical vectors elsewhere (refuted below). -/
theorem C44_vertical_partial (x : VIn) (n e p A : ℝ)
    (h : Regular x n e p A ∨ (x.ang = some 0 ∨ x.ang = some 180)) :
    ∃ o, adjustOne x = .ok o ∧ o.2.2 = x.z := by
  classical
  rcases h with h | h
  · obtain ⟨o, ho, hr⟩ := C42_rotation_single x n e p A h
    exact ⟨o, ho, by rw [hr]⟩
  · have hns : x.IsNs := h
    have hN : ¬ x.IsNorm := by unfold VIn.IsNorm; tauto
    refine ⟨specialOut x, by unfold adjustOne; rw [if_neg hN], ?_⟩
    unfold specialOut
    simp only
    by_cases h2 : x.SignFlip <;> simp [hns, h2]

/-- C44 for arrays, under the same conditions. -/
theorem C44_vertical_array_partial (xs : List VIn) (i : ℕ) (x : VIn) (n e p A : ℝ) (hx : xs[i]? = some x)
    (h : Regular x n e p A) :
    ∃ out o, adjustArr xs = .ok out ∧ out[i]? = some o ∧ o.2.2 = x.z := by
  obtain ⟨out, o, h1, h2, h3⟩ := C42_rotation_array xs i x n e p A hx h
  exact ⟨out, o, h1, h2, by rw [h3]⟩

/-- C44 is false for every purely vertical vector off the aligned meridian: the vertical component becomes 0. -/
theorem C44_vertical_lost_refuted (x : VIn) (p : ℝ) (hn : x.n = some 0) (he : x.e = some 0) (hp : x.ang = some p)
    (h0 : p ≠ 0) (h1 : p ≠ 180) : adjustOne x = .ok (some 0, some 0, some 0) := by
  classical
  have hz : x.IsZero := ⟨hn, he⟩
  have hns : ¬ x.IsNs := by unfold VIn.IsNs; rw [hp]; simp [h0, h1]
  have hN : ¬ x.IsNorm := by unfold VIn.IsNorm; tauto
  unfold adjustOne
  rw [if_neg hN]
  unfold specialOut
  simp [hz, hns]

/-- The concrete loss: a vertical component of 7 becomes 0. -/
example : adjustOne ⟨some 3, some 70, some 0, some 0, some 7, 0, some 22, some 80, some 40, 0⟩ =
    .ok (some 0, some 0, some 0) :=
  C44_vertical_lost_refuted _ 40 rfl rfl rfl (by norm_num) (by norm_num)

/-! ## C45: the aligned meridian -/

/-- C45 as far as it holds: at angle 0 with the data below the pole latitude the vector is unchanged.
Missing: angle 0 at or above the pole latitude, and angle 180 (both refuted below). -/
theorem C45_aligned_partial (x : VIn) (a b : ℝ) (hp : x.ang = some 0) (ha : x.lat = some a) (hb : x.poleLat = some b)
    (h : a < b) : adjustOne x = .ok (x.n, x.e, x.z) := by
  classical
  have hns : x.IsNs := .inl hp
  have hN : ¬ x.IsNorm := by unfold VIn.IsNorm; tauto
  have hf : ¬ x.SignFlip := by
    unfold VIn.SignFlip
    rw [ha, hb]
    simp [leF, hp, h]
  unfold adjustOne
  rw [if_neg hN]
  unfold specialOut
  simp [hns, hf]

/-- C45 is false at 180 degrees: there the vector is always returned unchanged. -/
theorem C45_opposite_refuted (x : VIn) (hp : x.ang = some 180) : adjustOne x = .ok (x.n, x.e, x.z) := by
  classical
  have hns : x.IsNs := .inr hp
  have hN : ¬ x.IsNorm := by unfold VIn.IsNorm; tauto
  have hf : ¬ x.SignFlip := by
    unfold VIn.SignFlip
    rw [hp]
    norm_num
  unfold adjustOne
  rw [if_neg hN]
  unfold specialOut
  simp [hns, hf]

/-- C45 is false at 0 degrees at or above the pole latitude: there the horizontal components are reversed. -/
theorem C45_reversed_refuted (x : VIn) (n e a b : ℝ) (hn : x.n = some n) (he : x.e = some e) (hp : x.ang = some 0)
    (ha : x.lat = some a) (hb : x.poleLat = some b) (h : b ≤ a) : adjustOne x = .ok (some (-n), some (-e), x.z) := by
  classical
  have hns : x.IsNs := .inl hp
  have hN : ¬ x.IsNorm := by unfold VIn.IsNorm; tauto
  have hf : x.SignFlip := by
    unfold VIn.SignFlip
    rw [ha, hb]
    simp [leF, hp, h]
  unfold adjustOne
  rw [if_neg hN]
  unfold specialOut
  simp [hns, hf, hn, he]

/-- A northward vector directly below, respectively beyond, the destination pole. -/
example : adjustOne ⟨some 3, some 70, some 1, some 0, some 0, 0, some 3, some 80, some 0, 0⟩ =
    .ok (some 1, some 0, some 0) := C45_aligned_partial _ 70 80 rfl rfl rfl (by norm_num)

example : adjustOne ⟨some 3, some 85, some 1, some 0, some 0, 0, some 3, some 80, some 180, 0⟩ =
    .ok (some 1, some 0, some 0) := C45_opposite_refuted _ rfl

end Ocb.Vec
