import Verif.Props.ScaleVector

/-!
# C69: `set_ocb` measures vectors from the pole of the boundary
-/

set_option autoImplicit false

namespace Ocb.Scale

open Ocb.Time Ocb.Coord Ocb.Vec

/-! ## Reading arrays -/

/-- Broadcast to length `m`, the array has entries `f 0, ..., f (m-1)`. -/
def Reads {α : Type*} (a : Arr α) (m : ℕ) (f : ℕ → α) : Prop :=
  (∃ x, a = .one x ∧ ∀ i, i < m → f i = x) ∨ a = .many ((List.range m).map f)

theorem range_zip {α β : Type*} (m : ℕ) (f : ℕ → α) (g : ℕ → β) :
    ((List.range m).map f).zip ((List.range m).map g) = (List.range m).map fun i => (f i, g i) := by
  induction List.range m with
  | nil => rfl
  | cons x xs ih => simp [ih]

theorem range_congr {α : Type*} {m : ℕ} {f g : ℕ → α} (h : ∀ i, i < m → f i = g i) :
    (List.range m).map f = (List.range m).map g :=
  List.map_congr_left fun i hi => h i (List.mem_range.1 hi)

theorem Reads.congr {α : Type*} {a : Arr α} {m : ℕ} {f g : ℕ → α} (h : Reads a m f) (hg : ∀ i, i < m → f i = g i) :
    Reads a m g := by
  rcases h with ⟨x, rfl, hx⟩ | rfl
  · exact .inl ⟨x, rfl, fun i hi => (hg i hi).symm.trans (hx i hi)⟩
  · exact .inr (by rw [range_congr hg])

theorem Reads.zip {α β : Type*} {a : Arr α} {b : Arr β} {m : ℕ} {f : ℕ → α} {g : ℕ → β} (ha : Reads a m f)
    (hb : Reads b m g) : ∃ c, a.zip b = .ok c ∧ Reads c m (fun i => (f i, g i)) ∧
      (c.shape = none ↔ a.shape = none ∧ b.shape = none) := by
  rcases ha with ⟨x, rfl, hx⟩ | rfl
  · rcases hb with ⟨y, rfl, hy⟩ | rfl
    · exact ⟨_, rfl, .inl ⟨_, rfl, fun i hi => by simp [hx i hi, hy i hi]⟩, by simp [Arr.shape]⟩
    · refine ⟨_, rfl, .inr ?_, by simp [Arr.shape]⟩
      rw [List.map_map]
      congr 1
      exact range_congr fun i hi => by simp [hx i hi]
  · rcases hb with ⟨y, rfl, hy⟩ | rfl
    · refine ⟨_, rfl, .inr ?_, by simp [Arr.shape]⟩
      rw [List.map_map]
      congr 1
      exact range_congr fun i hi => by simp [hy i hi]
    · refine ⟨_, zip_many _ _ (by simp), .inr ?_, by simp [Arr.shape]⟩
      rw [range_zip]

theorem Reads.map {α β : Type*} {a : Arr α} {m : ℕ} {f : ℕ → α} (h : Reads a m f) (g : α → β) :
    Reads (a.map g) m (fun i => g (f i)) := by
  rcases h with ⟨x, rfl, hx⟩ | rfl
  · exact .inl ⟨_, rfl, fun i hi => by simp [hx i hi]⟩
  · exact .inr (by simp [Arr.map, Function.comp_def])

theorem map_shape' {α β : Type*} (a : Arr α) (g : α → β) (h : (a.map g).shape = none) : a.shape = none := by
  cases a with
  | one x => rfl
  | many l => exact absurd h (by simp [Arr.map, Arr.shape])

theorem mapE_ok {α β : Type*} (l : List α) (g : α → Except PyErr β) (h : α → β) (hg : ∀ x ∈ l, g x = .ok (h x)) :
    Ocb.mapE g l = .ok (l.map h) := by
  induction l with
  | nil => rfl
  | cons x xs ih =>
    rw [Ocb.mapE, hg x (by simp)]
    simp only [bind, Except.bind]
    rw [ih fun y hy => hg y (by simp [hy])]
    rfl

theorem mapE_range {β α : Type*} (m : ℕ) (f : ℕ → α) (g : α → Except PyErr β) (h : ℕ → β)
    (hg : ∀ i, i < m → g (f i) = .ok (h i)) : Ocb.mapE g ((List.range m).map f) = .ok ((List.range m).map h) := by
  have : ∀ l : List ℕ, (∀ i ∈ l, i < m) → Ocb.mapE g (l.map f) = .ok (l.map h) := by
    intro l hl
    induction l with
    | nil => rfl
    | cons x xs ih =>
      rw [List.map_cons, Ocb.mapE, hg x (hl x (by simp))]
      simp only [bind, Except.bind]
      rw [ih fun y hy => hl y (by simp [hy])]
      rfl
  exact this _ fun i hi => List.mem_range.1 hi

theorem Reads.mapE {α β : Type*} {a : Arr α} {m : ℕ} {f : ℕ → α} (h : Reads a m f) (hm : 0 < m)
    (g : α → Except PyErr β) (r : ℕ → β) (hg : ∀ i, i < m → g (f i) = .ok (r i)) :
    ∃ c, a.mapE g = .ok c ∧ Reads c m r ∧ (c.shape = none ↔ a.shape = none) := by
  rcases h with ⟨x, rfl, hx⟩ | rfl
  · refine ⟨.one (r 0), ?_, .inl ⟨_, rfl, fun i hi => ?_⟩, by simp [Arr.shape]⟩
    · show (g x).map Arr.one = _
      rw [← hx 0 hm, hg 0 hm]; rfl
    · have := hg i hi
      rw [hx i hi, ← hx 0 hm, hg 0 hm] at this
      exact (Except.ok.inj this).symm
  · refine ⟨.many ((List.range m).map r), ?_, .inr rfl, by simp [Arr.shape]⟩
    show (Ocb.mapE g _).map Arr.many = _
    rw [mapE_range m f g r hg]; rfl

theorem Reads.notNan {α : Type*} {a : Arr (Option α)} {m : ℕ} {f : ℕ → α} (h : Reads a m fun i => some (f i))
    (hm : 0 < m) : a.allNan = false := by
  rcases h with ⟨x, rfl, hx⟩ | rfl
  · rw [← hx 0 hm]; rfl
  · show ((List.range m).map fun i => some (f i)).all (fun e => e.isNone) = false
    rw [List.all_eq_false]
    exact ⟨some (f 0), List.mem_map.2 ⟨0, List.mem_range.2 hm, rfl⟩, by simp⟩

theorem Reads.spread {α : Type*} {a : Arr α} {m : ℕ} {f : ℕ → α} (h : Reads a m f) (ind : Arr ℤ)
    (hi : ind.shape = none ∨ ind.shape = some m) : Reads (spread ind a) m f := by
  rcases h with ⟨x, rfl, hx⟩ | rfl
  · cases ind with
    | one k => exact .inl ⟨x, rfl, hx⟩
    | many l =>
      have hl : l.length = m := by
        rcases hi with h | h
        · exact absurd h (by simp [Arr.shape])
        · exact Option.some.inj h
      refine .inr ?_
      show Arr.many (List.replicate l.length x) = _
      congr 1
      rw [hl]
      exact (List.eq_replicate_iff.2 ⟨by simp, by
        intro b hb
        obtain ⟨i, hi, rfl⟩ := List.mem_map.1 hb
        exact hx i (List.mem_range.1 hi)⟩).symm
  · exact .inr rfl

/-! ## Rotation of several vectors off the meridians of their poles -/

/-- Numbers and the right quadrants. -/
structure Plain (x : VIn) : Prop where
  lt : ∃ a, x.lt = some a
  poleLt : ∃ a, x.poleLt = some a
  n : ∃ a, x.n = some a
  e : ∃ a, x.e = some a
  ang : ∃ a, x.ang = some a
  vq : x.vq = vectQuad x.n x.e
  pq : x.pq = poleQuad x.lt x.poleLt x.ang

theorem vectQuad_in (n e : ℝ) : inQuads (vectQuad (some n) (some e)) = true := by
  show inQuads (if 0 ≤ n ∧ 0 ≤ e then 1 else if 0 ≤ n ∧ e < 0 then 2 else if n < 0 ∧ e < 0 then 3
    else if n < 0 ∧ 0 ≤ e then 4 else 0) = true
  rcases le_or_gt 0 n with h | h <;> rcases le_or_gt 0 e with h' | h'
  · rw [if_pos ⟨h, h'⟩]; rfl
  · rw [if_neg fun c => not_le.2 h' c.2, if_pos ⟨h, h'⟩]; rfl
  · rw [if_neg fun c => not_le.2 h c.1, if_neg fun c => not_le.2 h c.1, if_neg fun c => not_lt.2 h' c.2,
      if_pos ⟨h, h'⟩]; rfl
  · rw [if_neg fun c => not_le.2 h c.1, if_neg fun c => not_le.2 h c.1, if_pos ⟨h, h'⟩]; rfl

theorem poleQuad_in (a b p : ℝ) : inQuads (poleQuad (some a) (some b) (some p)) = true := by
  unfold poleQuad
  simp only [ltDiff]
  generalize largeLoop _ = d
  rcases lt_or_ge p 90 with h | h <;> rcases lt_or_ge d 12 with h' | h'
  · rw [if_pos ⟨h, h'⟩]; rfl
  · rw [if_neg fun c => not_lt.2 h' c.2, if_pos ⟨h, h'⟩]; rfl
  · rw [if_neg fun c => not_lt.2 h c.1, if_neg fun c => not_lt.2 h c.1, if_neg fun c => not_le.2 h' c.2,
      if_pos ⟨h, h'⟩]; rfl
  · rw [if_neg fun c => not_lt.2 h c.1, if_neg fun c => not_lt.2 h c.1, if_pos ⟨h, h'⟩]; rfl

open Classical in
/-- The result of the rotation for plain input. -/
noncomputable def rotated (x : VIn) : VOut := if x.IsNorm then normOut false x.pq x.vq x else specialOut x

/-- Numbers and some quadrants. -/
structure Whole (x : VIn) : Prop where
  n : ∃ a, x.n = some a
  e : ∃ a, x.e = some a
  ang : ∃ a, x.ang = some a
  quads : inQuads x.pq = true ∧ inQuads x.vq = true

theorem Plain.whole {x : VIn} (h : Plain x) : Whole x := by
  obtain ⟨⟨a, ha⟩, ⟨b, hb⟩, ⟨n, hn⟩, ⟨e, he⟩, ⟨p, hp⟩, hv, hq⟩ := h
  refine ⟨⟨n, hn⟩, ⟨e, he⟩, ⟨p, hp⟩, ?_⟩
  rw [hv, hq, ha, hb, hn, he, hp]
  exact ⟨poleQuad_in _ _ _, vectQuad_in _ _⟩

theorem quad_ne_zero {q : ℤ} (h : inQuads q = true) : q ≠ 0 := by
  rintro rfl; exact absurd h (by decide)

theorem Whole.one {x : VIn} (h : Whole x) : adjustOne x = .ok (rotated x) := by
  unfold adjustOne rotated
  have := h.quads
  by_cases hN : x.IsNorm
  · rw [if_pos hN, if_pos hN]
    simp only [quad_ne_zero this.1, quad_ne_zero this.2, if_false, this.1, this.2, not_true_eq_false]
  · rw [if_neg hN, if_neg hN]

theorem Whole.nanZ {x : VIn} (h : Whole x) (hN : x.IsNorm) : normOut true x.pq x.vq x = rotated x := by
  obtain ⟨n, hn⟩ := h.n
  obtain ⟨e, he⟩ := h.e
  obtain ⟨p, hp⟩ := h.ang
  have h1 := C66_adjust x n e p hn he hp
  rw [h.one] at h1
  have hq := h.quads
  unfold adjustArr at h1
  rw [if_pos (by simp [hN])] at h1
  simp only [List.any_cons, List.any_nil, Bool.or_false, quad_ne_zero hq.1, quad_ne_zero hq.2, and_false, decide_false,
    if_false, hq.1, hq.2, not_true_eq_false, List.map_cons, List.map_nil, Except.map, Bool.false_eq_true] at h1
  rw [if_pos hN] at h1
  exact (List.cons.inj (Except.ok.inj h1)).1

theorem any_false {α : Type*} {l : List α} {p : α → Bool} (h : ∀ x ∈ l, p x = false) : l.any p = false :=
  List.any_eq_false.2 fun x hx => by simp [h x hx]

theorem Whole.arr {xs : List VIn} (h : ∀ x ∈ xs, Whole x) : adjustArr xs = .ok (xs.map rotated) := by
  classical
  unfold adjustArr
  by_cases hn : ∃ x ∈ xs, x.IsNorm
  · obtain ⟨x, hx, hN⟩ := hn
    rw [if_pos (List.any_eq_true.2 ⟨x, hx, by simp [hN]⟩)]
    rw [any_false (l := xs) (p := fun x : VIn => decide (x.IsNorm ∧ x.vq = 0)) fun y hy => by simp [quad_ne_zero (h y hy).quads.2],
      any_false (l := xs) (p := fun x : VIn => decide (x.IsNorm ∧ x.pq = 0)) fun y hy => by simp [quad_ne_zero (h y hy).quads.1]]
    simp only [Bool.false_eq_true, if_false]
    rw [if_neg (by rw [not_not]; exact List.any_eq_true.2 ⟨x, hx, (h x hx).quads.1⟩),
      if_neg (by rw [not_not]; exact List.any_eq_true.2 ⟨x, hx, (h x hx).quads.2⟩)]
    congr 1
    refine List.map_congr_left fun y hy => ?_
    by_cases hN : y.IsNorm
    · rw [if_pos hN, (h y hy).nanZ hN]
    · rw [if_neg hN, rotated, if_neg hN]
  · rw [if_neg (by rw [Bool.not_eq_true]; exact any_false fun y hy => by simpa using fun hN => hn ⟨y, hy, hN⟩)]
    congr 1
    refine List.map_congr_left fun y hy => ?_
    rw [rotated, if_neg fun hN => hn ⟨y, hy, hN⟩]

theorem Whole.many {xs : List VIn} (h : ∀ x ∈ xs, Whole x) (hN : (∀ x ∈ xs, x.IsNorm) ∨ ∀ x ∈ xs, ¬ x.IsNorm) :
    adjustMany xs = .ok (xs.map rotated) := by
  classical
  unfold adjustMany
  by_cases hn : ∃ x ∈ xs, x.IsNorm
  · obtain ⟨x, hx, hxN⟩ := hn
    have hN : ∀ x ∈ xs, x.IsNorm := hN.resolve_right fun hc => hc x hx hxN
    rw [if_pos (List.any_eq_true.2 ⟨x, hx, by simp [hxN]⟩)]
    rw [any_false (l := xs) (p := fun x : VIn => decide (x.vq = 0)) fun y hy => by simp [quad_ne_zero (h y hy).quads.2],
      any_false (l := xs) (p := fun x : VIn => decide (x.IsNorm ∧ x.pq = 0)) fun y hy => by simp [quad_ne_zero (h y hy).quads.1]]
    simp only [Bool.false_eq_true, if_false]
    rw [if_neg (by rw [not_not]; exact List.any_eq_true.2 ⟨x, hx, (h x hx).quads.1⟩),
      if_neg (by rw [not_not]; exact List.any_eq_true.2 ⟨x, hx, (h x hx).quads.2⟩)]
    congr 1
    rw [List.filter_eq_self.2 fun y hy => by simp [hN y hy]]
    refine List.map_congr_left fun y hy => ?_
    rw [rotated, if_pos (hN y hy)]
  · rw [if_neg (by rw [Bool.not_eq_true]; exact any_false fun y hy => by simpa using fun hN => hn ⟨y, hy, hN⟩)]
    congr 1
    refine List.map_congr_left fun y hy => ?_
    rw [rotated, if_neg fun hN => hn ⟨y, hy, hN⟩]

/-! ## The pipeline -/

/-- One vector and its boundary: location, components, radius correction, index asked for, record used, the circle of
that record. -/
structure Pt where
  da : ℝ
  dl : ℝ
  n : ℝ
  e : ℝ
  z : ℝ
  rc : ℝ
  k : ℤ
  j : ℤ
  r : ℝ
  phi : ℝ
  rho : ℝ

/-- Index `k` of the boundary object stands for record `j` of the circles: the same number for an `OCBoundary`, the
record of the OCB in pair `k` for a `DualBoundary`. -/
def Selects (b : Bnd) (k j : ℤ) : Prop :=
  match b.pairs with
  | none => j = k
  | some l => pyIdx l k = .ok j

/-- The record exists and the vector is not at a pole. -/
structure Pt.Base (b : Bnd) (y : Pt) : Prop where
  sel : Selects b y.k y.j
  r : pyIdx b.r y.j = .ok y.r
  phi : pyIdx b.phiCent y.j = .ok y.phi
  rho : pyIdx b.rCent y.j = .ok y.rho
  lat : |y.da| < 90
  rho0 : 0 ≤ y.rho
  rho90 : y.rho < 90

/-- Besides, the vector lies off the meridian of the circle's centre and has a horizontal part. -/
structure Pt.Good (b : Bnd) (y : Pt) : Prop extends Pt.Base b y where
  off : ∀ i : ℤ, y.phi / 15 ≠ y.dl + 12 * i
  vec : ¬ (y.n = 0 ∧ y.e = 0)

/-- The object holds the vectors `ys 0, ..., ys (m-1)`, each attribute as a single value or an array. -/
structure Holds (v : VD) (m : ℕ) (ys : ℕ → Pt) : Prop where
  datInd : v.datInd.shape = none ∨ v.datInd.shape = some m
  ocbInd : Reads v.ocbInd m fun i => (ys i).k
  lat : Reads v.lat m fun i => some (ys i).da
  lt : Reads v.lt m fun i => some (ys i).dl
  n : Reads v.vectN m fun i => some (ys i).n
  e : Reads v.vectE m fun i => some (ys i).e
  z : Reads v.vectZ m fun i => some (ys i).z
  loc : v.locCoord = "magnetic"
  vect : v.vectCoord = "magnetic"

/-- The local time of the pole as the code computes it. -/
noncomputable def Pt.pl (y : Pt) : ℝ := fixVal (y.phi / 15) 0 24 24

theorem degrees_inj {a b : ℝ} : degrees a = degrees b ↔ a = b :=
  ⟨fun h => by rw [← radians_degrees a, h, radians_degrees], fun h => by rw [h]⟩

open Classical in
/-- The angle that the code computes: the angle of the spherical triangle off the meridian, 0 or 180 on it. -/
noncomputable def Pt.angle (y : Pt) : ℝ :=
  if Real.sin (hourAngle (y.pl - y.dl)) = 0 then
    ((poleAngle (some y.dl) (some y.da) (some y.pl) (some (90 - y.rho))).toOption.join).getD 0
  else degrees (angleAt (place y.da y.dl) (basePole 1) (place (90 - y.rho) y.pl))

/-- The data and pole of one vector with the angle and the quadrants that belong to them. -/
noncomputable def Pt.vin (y : Pt) : VIn :=
  let ang := some y.angle
  { lt := some y.dl, lat := some y.da, n := some y.n, e := some y.e, z := some y.z, poleLt := some y.pl
    poleLat := some (90 - y.rho), ang := ang, pq := poleQuad (some y.dl) (some y.pl) ang
    vq := vectQuad (some y.n) (some y.e) }

theorem Pt.Good.off' {b : Bnd} {y : Pt} (h : y.Good b) (i : ℤ) : y.pl ≠ y.dl + 12 * i := by
  obtain ⟨k, hk⟩ := fixVal_congr (y.phi / 15) 0 24 24 (by norm_num : (0 : ℝ) < 24)
  intro hc
  apply h.off (i - 2 * k)
  unfold Pt.pl at hc
  push_cast
  linarith

theorem Pt.Base.angles {b : Bnd} {y : Pt} (h : y.Base b) :
    poleAngle (some y.dl) (some y.da) (some y.pl) (some (90 - y.rho)) = .ok (some y.angle) ∧
    poleAngleEntry (some y.dl) (some y.da) (some y.pl) (some (90 - y.rho)) = .ok (some y.angle) := by
  have hp : 0 < 90 - y.rho := by linarith [h.rho90]
  rw [← C66_pole_angle, and_self]
  by_cases h' : Real.sin (hourAngle (y.pl - y.dl)) = 0
  · have e := (poleAngle_on (da := y.da) (pa := 90 - y.rho) h').1
    unfold Pt.angle
    rw [if_pos h', e]
    rfl
  · have hoff : ∀ k : ℤ, y.pl ≠ y.dl + 12 * k := by
      rw [sin_hour_zero] at h'; push Not at h'; exact h'
    have := (C40_off_meridian y.dl y.da y.pl (90 - y.rho) h.lat hp.ne' hoff).1
    rw [sign_pos hp, SignType.coe_one] at this
    unfold Pt.angle
    rw [if_neg h', this]

theorem Pt.Good.norm {b : Bnd} {y : Pt} (h : y.Good b) (hr : 0 < y.rho) : y.vin.IsNorm := by
  have h' : Real.sin (hourAngle (y.pl - y.dl)) ≠ 0 := by
    rw [Ne, sin_hour_zero]; push Not; exact h.off'
  have hpos := tLen_pos (a := radians y.da) (b := radians (90 - y.rho)) (cos_lat_pos h.lat).ne' h'
  have hw : tE (radians (90 - y.rho)) (hourAngle (y.pl - y.dl)) ≠ 0 :=
    mul_ne_zero (cos_lat_pos (by rw [abs_lt]; constructor <;> linarith [h.rho90])).ne' h'
  have hsq : tN (radians y.da) (radians (90 - y.rho)) (hourAngle (y.pl - y.dl)) ^ 2 <
      tLen (radians y.da) (radians (90 - y.rho)) (hourAngle (y.pl - y.dl)) ^ 2 := by
    unfold tLen
    rw [Real.sq_sqrt (by positivity)]
    have := sq_pos_of_ne_zero hw
    linarith
  have hlt := abs_lt_of_sq_lt_sq hsq hpos.le
  have hang : y.vin.ang = some y.angle := rfl
  have ha : y.angle = degrees (Real.arccos (tN (radians y.da) (radians (90 - y.rho)) (hourAngle (y.pl - y.dl)) /
      tLen (radians y.da) (radians (90 - y.rho)) (hourAngle (y.pl - y.dl)))) := by
    unfold Pt.angle
    rw [if_neg h', angleAt_eq (.inl rfl) (cos_lat_pos h.lat), one_mul]
  rintro (⟨h1, h2⟩ | h1 | h1)
  · exact h.vec ⟨Option.some.inj h1, Option.some.inj h2⟩
  · rw [hang] at h1
    have h1 := Option.some.inj h1
    rw [ha, ← degrees_zero, degrees_inj, Real.arccos_eq_zero, le_div_iff₀ hpos] at h1
    linarith [(abs_lt.1 hlt).2]
  · rw [hang] at h1
    have h1 := Option.some.inj h1
    rw [ha, ← degrees_pi, degrees_inj, Real.arccos_eq_pi, div_le_iff₀ hpos] at h1
    linarith [(abs_lt.1 hlt).1]

theorem Pt.plain (y : Pt) : Plain y.vin :=
  ⟨⟨_, rfl⟩, ⟨_, rfl⟩, ⟨_, rfl⟩, ⟨_, rfl⟩, ⟨_, rfl⟩, rfl, rfl⟩

/-- The same hour of the day is the same place. -/
theorem place_day (lat lt : ℝ) (k : ℤ) : place lat (lt + 24 * k) = place lat lt := by
  have : hourAngle (lt + 24 * k) = hourAngle lt + k * (2 * Real.pi) := by unfold hourAngle; ring
  unfold place
  rw [this, Real.cos_add_int_mul_two_pi, Real.sin_add_int_mul_two_pi]

/-- What the claim asks for: the components towards the centre of the boundary circle and to the right of it. -/
noncomputable def Pt.north (y : Pt) : ℝ :=
  towards (place y.da y.dl) (place (90 - y.rho) (y.phi / 15)) (horiz y.da y.dl y.n y.e)

/-- To the right of that direction. -/
noncomputable def Pt.east (y : Pt) : ℝ :=
  rightOf (place y.da y.dl) (place (90 - y.rho) (y.phi / 15)) (horiz y.da y.dl y.n y.e)

theorem Pt.Good.out {b : Bnd} {y : Pt} (h : y.Good b) : rotated y.vin = (some y.north, some y.east, some y.z) := by
  have h1 := y.plain.whole.one
  have hl : Linked y.vin y.da y.dl y.n y.e (90 - y.rho) y.pl :=
    ⟨rfl, rfl, rfl, rfl, rfl, rfl, h.angles.1, .inr rfl, .inr rfl⟩
  rw [C67_northern y.vin _ _ _ _ _ _ hl h.lat (by linarith [h.rho90]) (by linarith [h.rho0]) h.off' h.vec] at h1
  obtain ⟨k, hk⟩ := fixVal_congr (y.phi / 15) 0 24 24 (by norm_num : (0 : ℝ) < 24)
  have hpl : place (90 - y.rho) y.pl = place (90 - y.rho) (y.phi / 15) := by
    rw [show y.pl = y.phi / 15 + 24 * k from by unfold Pt.pl; rw [hk]; ring, place_day]
  rw [hpl] at h1
  exact (Except.ok.inj h1).symm

/-- The vectors are the same. -/
def SameVec (v w : VD) : Prop := w.vectN = v.vectN ∧ w.vectE = v.vectE ∧ w.vectZ = v.vectZ

/-- State of the object after the pole of the boundary has been found. -/
structure HasPole (v : VD) (m : ℕ) (ys : ℕ → Pt) : Prop extends Holds v m ys where
  poleLt : Reads v.aacgmMlt m fun i => some (ys i).pl
  poleLat : Reads v.aacgmLat m fun i => some (90 - (ys i).rho)
  unscaled : ∃ u, v.unscaledR = some u ∧ Reads u m fun i => some ((ys i).r + (ys i).rc)

theorem poleStep_ok {b : Bnd} {v : VD} {m : ℕ} {ys : ℕ → Pt} (hm : 0 < m) (h : Holds v m ys)
    (hg : ∀ i, i < m → (ys i).Base b) (hrc : Reads v.rCorr m fun i => some (ys i).rc) :
    ∃ w, poleStep b v = .ok w ∧ HasPole w m ys ∧ w.scaleFunc = v.scaleFunc ∧ SameVec v w ∧
      w.datInd = v.datInd ∧ (w.aacgmMlt.shape = none → v.ocbInd.shape = none) ∧ ∃ s, w.scaledR = some s ∧ Reads s m fun _ => some (90 - |b.blat|) := by
  have hind : ∃ ind, circleInd b v = .ok ind ∧ (Reads ind m fun i => (ys i).j) ∧
      (ind.shape = none → v.ocbInd.shape = none) := by
    unfold circleInd
    cases hp : b.pairs with
    | none =>
      refine ⟨_, rfl, h.ocbInd.congr fun i hi => ?_, id⟩
      have := (hg i hi).sel
      unfold Selects at this
      rw [hp] at this
      exact this.symm
    | some l =>
      obtain ⟨c, h1, h2, h3⟩ := h.ocbInd.mapE hm (pyIdx l) (fun i => (ys i).j) fun i hi => by
        have := (hg i hi).sel
        unfold Selects at this
        rw [hp] at this
        exact this
      exact ⟨c, h1, h2, h3.1⟩
  obtain ⟨ind, hi1, hi2, hi3⟩ := hind
  obtain ⟨r, r1, r2, -⟩ := hi2.mapE hm (pyIdx b.r) (fun i => (ys i).r) fun i hi => (hg i hi).r
  obtain ⟨rr, rr1, rr2, -⟩ := r2.zip hrc
  obtain ⟨ph, p1, p2, p3⟩ := hi2.mapE hm (pyIdx b.phiCent) (fun i => (ys i).phi) fun i hi => (hg i hi).phi
  obtain ⟨rc, c1, c2, -⟩ := hi2.mapE hm (pyIdx b.rCent) (fun i => (ys i).rho) fun i hi => (hg i hi).rho
  obtain ⟨pr, q1, q2, q3⟩ := p2.zip c2
  obtain ⟨pl, l1, l2, l3⟩ := q2.mapE hm (fun x => getPoleLoc x.1 x.2) (fun i => ((ys i).pl, 90 - (ys i).rho)) fun i _ => by
    simp only [getPoleLoc, deg2hr_ok, bind, Except.bind, pure, Except.pure]
    rfl
  have hpole : poleArr ph rc = .ok pl := by
    unfold poleArr
    rw [q1]
    exact l1
  have hu : Reads (rr.map fun x => x.2.map (x.1 + ·)) m fun i => some ((ys i).r + (ys i).rc) := rr2.map _
  have hw : poleStep b v = .ok { v with
      unscaledR := some (rr.map fun x => x.2.map (x.1 + ·))
      scaledR := some (.full (rr.map fun x => x.2.map (x.1 + ·)).shape (some (90 - |b.blat|)))
      aacgmMlt := pl.map fun p => some p.1
      aacgmLat := pl.map fun p => some p.2 } := by
    unfold poleStep
    rw [hi1]
    simp only [bind, Except.bind, idxArr]
    rw [r1]
    simp only
    rw [rr1]
    simp only
    rw [p1]
    simp only
    rw [c1]
    simp only
    rw [hpole]
    rfl
  refine ⟨_, hw, ⟨⟨h.1, h.2, h.3, h.4, h.5, h.6, h.7, h.8, h.9⟩, l2.map _, l2.map _, ⟨_, rfl, hu⟩⟩, rfl, ⟨rfl, rfl, rfl⟩, rfl,
    fun hn => hi3 (p3.1 (q3.1 (l3.1 (map_shape' _ _ hn))).1), _, rfl, ?_⟩
  rcases hu with ⟨x, hx, -⟩ | hx
  · rw [hx]
    exact .inl ⟨_, rfl, fun _ _ => rfl⟩
  · rw [hx]
    refine .inr ?_
    show Arr.many (List.replicate _ _) = _
    simp

/-- Pole angle and quadrants are those of each vector. -/
structure HasQuads (v : VD) (m : ℕ) (ys : ℕ → Pt) : Prop extends HasPole v m ys where
  ang : Reads v.poleAngle m fun i => some (ys i).angle
  pq : Reads v.ocbQuad m fun i => (ys i).vin.pq
  vq : Reads v.vecQuad m fun i => (ys i).vin.vq

theorem rotateStep_start {b : Bnd} {v : VD} {m : ℕ} {ys : ℕ → Pt} (hm : 0 < m) (h : HasPole v m ys)
    (hg : ∀ i, i < m → (ys i).Base b) (f : Option (F → F → F → F)) :
    ∃ w, rotateStep f v = scaleVector (pickScale f w) ∧ HasQuads w m ys ∧ w.scaleFunc = v.scaleFunc ∧
      SameVec v w ∧ w.unscaledR = v.unscaledR ∧ w.scaledR = v.scaledR ∧
      (w.lt.shape = none → v.datInd.shape = none) ∧ w.aacgmMlt = v.aacgmMlt := by
  set v1 : VD := { v with lt := spread v.datInd v.lt, lat := spread v.datInd v.lat } with hv1
  have hlt : Reads v1.lt m fun i => some (ys i).dl := h.lt.spread _ h.datInd
  have hlat : Reads v1.lat m fun i => some (ys i).da := h.lat.spread _ h.datInd
  obtain ⟨d, d1, d2, -⟩ := hlt.zip hlat
  obtain ⟨p, p1, p2, -⟩ := h.poleLt.zip h.poleLat
  obtain ⟨a, a1, a2, -⟩ := d2.zip p2
  have hang : ∃ g, poleAngles a = .ok g ∧ Reads g m fun i => some (ys i).angle := by
    rcases a2 with ⟨x, rfl, hx⟩ | rfl
    · refine ⟨.one (some (ys 0).angle), ?_, .inl ⟨_, rfl, fun i hi => ?_⟩⟩
      · rw [← hx 0 hm]
        show (Vec.poleAngle _ _ _ _).map Arr.one = _
        rw [(hg 0 hm).angles.1]; rfl
      · have e1 := (hg i hi).angles.1
        have e2 := (hg 0 hm).angles.1
        have e3 := (hx i hi).trans (hx 0 hm).symm
        simp only [Prod.mk.injEq] at e3
        obtain ⟨⟨f1, f2⟩, f3, f4⟩ := e3
        rw [f1, f2, f3, f4, e2] at e1
        exact (Except.ok.inj e1).symm
    · refine ⟨_, ?_, .inr rfl⟩
      show (Ocb.mapE _ _).map Arr.many = _
      rw [mapE_range m _ _ (fun i => some (ys i).angle) fun i hi => (hg i hi).angles.2]
      rfl
  obtain ⟨g, g1, g2⟩ := hang
  set v2 : VD := { v1 with poleAngle := g } with hv2
  have hc : calcPoleAngle v = .ok v2 := by
    unfold calcPoleAngle
    rw [if_neg (by rw [h.loc]; simp)]
    simp only [← hv1]
    rw [if_neg (by rw [hlt.notNan hm]; simp), if_neg (by rw [hlat.notNan hm]; simp),
      if_neg (by rw [h.poleLt.notNan hm]; simp), if_neg (by rw [h.poleLat.notNan hm]; simp)]
    simp only [bind, Except.bind]
    rw [d1]
    simp only
    rw [p1]
    simp only
    rw [a1]
    simp only
    rw [g1]
    rfl
  obtain ⟨t, t1, t2, -⟩ := hlt.zip h.poleLt
  obtain ⟨q, q1, q2, -⟩ := t2.zip g2
  obtain ⟨ne, n1, n2, -⟩ := h.n.zip h.e
  have hq : defineQuadrants v2 = .ok { v2 with
      ocbQuad := q.map fun x => poleQuad x.1.1 x.1.2 x.2
      vecQuad := ne.map fun x => vectQuad x.1 x.2 } := by
    unfold defineQuadrants
    rw [if_neg (by simp [hv2, hv1, h.loc, h.vect]), if_neg (by rw [show v2.aacgmMlt = v.aacgmMlt from rfl, h.poleLt.notNan hm]; simp),
      if_neg (by rw [show v2.lt = v1.lt from rfl, hlt.notNan hm]; simp),
      if_neg (by rw [show v2.poleAngle = g from rfl, g2.notNan hm]; simp)]
    simp only [bind, Except.bind]
    rw [show v2.lt.zip v2.aacgmMlt = .ok t from t1]
    simp only
    rw [show t.zip v2.poleAngle = .ok q from q1]
    simp only
    rw [show v2.vectN.zip v2.vectE = .ok ne from n1]
    rfl
  refine ⟨{ v2 with
      ocbQuad := q.map fun x => poleQuad x.1.1 x.1.2 x.2
      vecQuad := ne.map fun x => vectQuad x.1 x.2 }, ?_, ⟨⟨⟨h.1.1, h.1.2, hlat, hlt, h.1.5, h.1.6, h.1.7, h.1.8, h.1.9⟩, h.2, h.3, h.4⟩, g2, q2.map _, n2.map _⟩,
    rfl, ⟨rfl, rfl, rfl⟩, rfl, rfl, ?_, rfl⟩
  swap
  · intro hn
    have hn : (spread v.datInd v.lt).shape = none := hn
    revert hn
    cases v.datInd with
    | one k => exact fun _ => rfl
    | many l => cases v.lt <;> simp [spread, Arr.full, Arr.shape]
  unfold rotateStep
  rw [hc]
  simp only [bind, Except.bind]
  rw [if_neg (by rw [show v2.poleAngle = g from rfl, g2.notNan hm]; simp), hq]

/-- The object holds the arguments `xs 0, ..., xs (m-1)` of `adjust_vector`. -/
structure Carries (v : VD) (m : ℕ) (xs : ℕ → VIn) : Prop where
  lt : Reads v.lt m fun i => (xs i).lt
  lat : Reads v.lat m fun i => (xs i).lat
  poleLt : Reads v.aacgmMlt m fun i => (xs i).poleLt
  poleLat : Reads v.aacgmLat m fun i => (xs i).poleLat
  ang : Reads v.poleAngle m fun i => (xs i).ang
  pq : Reads v.ocbQuad m fun i => (xs i).pq
  n : Reads v.vectN m fun i => (xs i).n
  e : Reads v.vectE m fun i => (xs i).e
  z : Reads v.vectZ m fun i => (xs i).z
  vq : Reads v.vecQuad m fun i => (xs i).vq

theorem adjust_gen {v : VD} {m : ℕ} {xs : ℕ → VIn} (hm : 0 < m) (h : Carries v m xs)
    (hp : ∀ i, i < m → Whole (xs i))
    (hs : (∀ i, i < m → (xs i).IsNorm) ∨ v.vectN.shape ≠ none ∨ m = 1) :
    ∃ o, adjust v = .ok o ∧ (Reads o m fun i => rotated (xs i)) ∧
      (o.shape = none → v.lt.shape = none ∧ v.aacgmMlt.shape = none) := by
  obtain ⟨d, d1, d2, d3⟩ := h.lt.zip h.lat
  obtain ⟨p, p1, p2, p3⟩ := h.poleLt.zip h.poleLat
  obtain ⟨dp, a1, a2, a3⟩ := d2.zip p2
  obtain ⟨aq, q1, q2, -⟩ := h.ang.zip h.pq
  obtain ⟨ne, n1, n2, n3⟩ := h.n.zip h.e
  obtain ⟨nez, z1, z2, z3⟩ := n2.zip h.z
  obtain ⟨vec, v1, v2, -⟩ := z2.zip h.vq
  obtain ⟨av, w1, w2, -⟩ := q2.zip v2
  obtain ⟨all, l1, l2, l3⟩ := a2.zip w2
  have hall : Reads (all.map mkIn) m fun i => (xs i) := l2.map mkIn
  unfold adjust
  rw [d1]
  simp only [bind, Except.bind]
  rw [p1]
  simp only
  rw [a1]
  simp only
  rw [q1]
  simp only
  rw [n1]
  simp only
  rw [z1]
  simp only
  rw [v1]
  simp only
  rw [w1]
  simp only
  rw [l1]
  simp only
  have hpl : ∀ x ∈ (List.range m).map fun i => (xs i), Whole x := by
    intro x hx
    obtain ⟨i, hi, rfl⟩ := List.mem_map.1 hx
    exact hp i (List.mem_range.1 hi)
  have hmap : ((List.range m).map fun i => (xs i)).map rotated =
      (List.range m).map fun i => rotated (xs i) := by
    rw [List.map_map]
    rfl
  rcases hall with ⟨x, hx, hx'⟩ | hx
  · rw [hx]
    simp only
    refine ⟨_, ?_, .inl ⟨rotated x, rfl, fun i hi => ?_⟩, fun _ => ?_⟩
    · rw [← hx' 0 hm, (hp 0 hm).one]; rfl
    · rw [← hx' i hi]
    · have := a3.1 (l3.1 (map_shape' all mkIn (by rw [hx]; rfl))).1
      exact ⟨(d3.1 this.1).1, (p3.1 this.2).1⟩
  · rw [hx]
    cases hz : nez with
    | many l =>
      refine ⟨_, ?_, .inr rfl, by simp [Arr.shape]⟩
      show (adjustArr _).map Arr.many = _
      rw [Whole.arr hpl, hmap]
      rfl
    | one c =>
      refine ⟨_, ?_, .inr rfl, by simp [Arr.shape]⟩
      show (adjustMany _).map Arr.many = _
      rw [Whole.many hpl, hmap]
      · rfl
      · rcases hs with hs | hs | hs
        · left
          intro x hx
          obtain ⟨i, hi, rfl⟩ := List.mem_map.1 hx
          exact hs i (List.mem_range.1 hi)
        · rw [hz] at z3
          exact absurd (n3.1 (z3.1 rfl).1).1 hs
        · subst hs
          by_cases hN : (xs 0).IsNorm
          · left; simpa using hN
          · right; simpa using hN

theorem adjust_rot {v : VD} {m : ℕ} {ys : ℕ → Pt} (hm : 0 < m) (h : HasQuads v m ys)
    (hs : (∀ i, i < m → (ys i).vin.IsNorm) ∨ v.vectN.shape ≠ none ∨ m = 1) :
    ∃ o, adjust v = .ok o ∧ (Reads o m fun i => rotated (ys i).vin) ∧
      (o.shape = none → v.lt.shape = none ∧ v.aacgmMlt.shape = none) :=
  adjust_gen hm ⟨h.lt, h.lat, h.poleLt, h.poleLat, h.ang, h.pq, h.n, h.e, h.z, h.vq⟩
    (fun i _ => (ys i).plain.whole) hs

theorem adjust_ok {b : Bnd} {v : VD} {m : ℕ} {ys : ℕ → Pt} (hm : 0 < m) (h : HasQuads v m ys)
    (hg : ∀ i, i < m → (ys i).Good b) (hs : (∀ i, i < m → 0 < (ys i).rho) ∨ v.vectN.shape ≠ none ∨ m = 1) :
    ∃ o, adjust v = .ok o ∧ (Reads o m fun i => (some (ys i).north, some (ys i).east, some (ys i).z)) ∧
      (o.shape = none → v.lt.shape = none ∧ v.aacgmMlt.shape = none) := by
  obtain ⟨o, h1, h2, h3⟩ := adjust_rot hm h (hs.imp (fun hs i hi => (hg i hi).norm (hs i hi)) id)
  exact ⟨o, h1, h2.congr fun i hi => (hg i hi).out, h3⟩

/-- The horizontal magnitude does not change. -/
theorem Pt.Good.mag {b : Bnd} {y : Pt} (h : y.Good b) : y.north ^ 2 + y.east ^ 2 = y.n ^ 2 + y.e ^ 2 := by
  have h' : Real.sin (hourAngle (y.pl - y.dl)) ≠ 0 := by
    rw [Ne, sin_hour_zero]; push Not; exact h.off'
  obtain ⟨k, hk⟩ := fixVal_congr (y.phi / 15) 0 24 24 (by norm_num : (0 : ℝ) < 24)
  have hpl : place (90 - y.rho) y.pl = place (90 - y.rho) (y.phi / 15) := by
    rw [show y.pl = y.phi / 15 + 24 * k from by unfold Pt.pl; rw [hk]; ring, place_day]
  unfold Pt.north Pt.east
  rw [← hpl, towards_eq, rightOf_eq]
  have hpos := tLen_pos (a := radians y.da) (b := radians (90 - y.rho)) (cos_lat_pos h.lat).ne' h'
  have hsq : tLen (radians y.da) (radians (90 - y.rho)) (hourAngle (y.pl - y.dl)) ^ 2 =
      tE (radians (90 - y.rho)) (hourAngle (y.pl - y.dl)) ^ 2 +
        tN (radians y.da) (radians (90 - y.rho)) (hourAngle (y.pl - y.dl)) ^ 2 := by
    unfold tLen
    rw [Real.sq_sqrt (by positivity)]
  rw [div_pow, div_pow, ← add_div, div_eq_iff (pow_ne_zero 2 hpos.ne'), hsq]
  ring

theorem Reads.apply {x u s : Arr F} {m : ℕ} {f g h : ℕ → F} (hx : Reads x m f) (hu : Reads u m g) (hs : Reads s m h)
    (F' : F → F → F → F) : ∃ c, applyScale F' x u s = .ok c ∧ Reads c m fun i => F' (f i) (g i) (h i) := by
  obtain ⟨us, a1, a2, -⟩ := hu.zip hs
  obtain ⟨xus, b1, b2, -⟩ := hx.zip a2
  refine ⟨_, ?_, b2.map fun y => F' y.1 y.2.1 y.2.2⟩
  unfold applyScale
  rw [a1]
  simp only [bind, Except.bind]
  rw [b1]
  rfl

theorem Reads.mag {n e z : Arr F} {m : ℕ} {f g h : ℕ → F} (hn : Reads n m f) (he : Reads e m g) (hz : Reads z m h) :
    ∃ c, magArr n e z = .ok c ∧ Reads c m fun i => mag3 ((f i, g i), h i) := by
  obtain ⟨ne, a1, a2, -⟩ := hn.zip he
  obtain ⟨nez, b1, b2, -⟩ := a2.zip hz
  refine ⟨_, ?_, b2.map mag3⟩
  unfold magArr
  rw [a1]
  simp only [bind, Except.bind]
  rw [b1]
  rfl

theorem scaleVector_plain {b : Bnd} {v : VD} {m : ℕ} {ys : ℕ → Pt} (hm : 0 < m) (h : HasQuads v m ys)
    (hg : ∀ i, i < m → (ys i).Good b) (hs : (∀ i, i < m → 0 < (ys i).rho) ∨ v.vectN.shape ≠ none ∨ m = 1)
    (hf : v.scaleFunc = none) :
    ∃ w, scaleVector v = .ok w ∧ (Reads w.ocbN m fun i => some (ys i).north) ∧
      (Reads w.ocbE m fun i => some (ys i).east) ∧ (Reads w.ocbZ m fun i => some (ys i).z) ∧
      (Reads w.ocbMag m fun i => mag3 ((some (ys i).north, some (ys i).east), some (ys i).z)) ∧
      w.unscaledR = v.unscaledR := by
  obtain ⟨o, o1, o2, -⟩ := adjust_ok hm h hg hs
  obtain ⟨c, c1, c2⟩ := (o2.map (·.1)).mag (o2.map (·.2.1)) (o2.map (·.2.2))
  refine ⟨{ v with ocbN := o.map (·.1), ocbE := o.map (·.2.1), ocbZ := o.map (·.2.2), ocbMag := c }, ?_, o2.map _,
    o2.map _, o2.map _, c2, rfl⟩
  unfold scaleVector
  rw [if_neg (by rw [h.lat.notNan hm, h.lt.notNan hm]; simp), if_neg (by rw [h.poleLt.notNan hm]; simp),
    if_neg (by rw [h.ang.notNan hm]; simp), o1, hf]
  simp only [bind, Except.bind]
  rw [c1]
  rfl

theorem scaleVector_scaled {b : Bnd} {v : VD} {m : ℕ} {ys : ℕ → Pt} (hm : 0 < m) (h : HasQuads v m ys)
    (hg : ∀ i, i < m → (ys i).Good b) (hs : (∀ i, i < m → 0 < (ys i).rho) ∨ v.vectN.shape ≠ none ∨ m = 1)
    (f : F → F → F → F) (hf : v.scaleFunc = some f) (hmany : v.lt.shape ≠ none ∨ v.aacgmMlt.shape ≠ none) (c : F) (s : Arr F)
    (hsc : v.scaledR = some s) (hsr : Reads s m fun _ => c) :
    ∃ w, scaleVector v = .ok w ∧
      (Reads w.ocbN m fun i => f (some (ys i).north) (some ((ys i).r + (ys i).rc)) c) ∧
      (Reads w.ocbE m fun i => f (some (ys i).east) (some ((ys i).r + (ys i).rc)) c) ∧
      (Reads w.ocbZ m fun i => f (some (ys i).z) (some ((ys i).r + (ys i).rc)) c) ∧
      (Reads w.ocbMag m fun i => mag3 ((f (some (ys i).north) (some ((ys i).r + (ys i).rc)) c,
        f (some (ys i).east) (some ((ys i).r + (ys i).rc)) c), f (some (ys i).z) (some ((ys i).r + (ys i).rc)) c)) := by
  obtain ⟨o, o1, o2, o3⟩ := adjust_ok hm h hg hs
  obtain ⟨u, hu, hur⟩ := h.unscaled
  obtain ⟨x1, a1, a2⟩ := (o2.map (·.1)).apply hur hsr f
  obtain ⟨x2, b1, b2⟩ := (o2.map (·.2.1)).apply hur hsr f
  obtain ⟨x3, c1, c2⟩ := (o2.map (·.2.2)).apply hur hsr f
  obtain ⟨mg, d1, d2⟩ := a2.mag b2 c2
  refine ⟨{ v with ocbN := x1, ocbE := x2, ocbZ := x3, ocbMag := mg }, ?_, a2, b2, c2, d2⟩
  unfold scaleVector
  rw [if_neg (by rw [h.lat.notNan hm, h.lt.notNan hm]; simp), if_neg (by rw [h.poleLt.notNan hm]; simp),
    if_neg (by rw [h.ang.notNan hm]; simp), o1, hf, hu, hsc]
  cases o with
  | one q => exact absurd (o3 rfl) (by tauto)
  | many q =>
    simp only [bind, Except.bind, pure, Except.pure]
    rw [a1]
    simp only
    rw [b1]
    simp only
    rw [c1]
    simp only
    rw [d1]

/-- The cursor and the indices asked for lie within the times of the boundary object. -/
structure InRange (b : Bnd) (m : ℕ) (ys : ℕ → Pt) : Prop where
  cursor : ∃ t, pyIdx b.dtime b.recInd = .ok t
  index : ∀ i, i < m → ∃ t, pyIdx b.dtime (ys i).k = .ok t

theorem timesOf_ok {b : Bnd} {v : VD} {m : ℕ} {ys : ℕ → Pt} (hm : 0 < m) (h : Reads v.ocbInd m fun i => (ys i).k)
    (hr : InRange b m ys) : ∃ ts, timesOf b v = .ok ts := by
  unfold timesOf
  cases hv : v.ocbInd with
  | one k =>
    obtain ⟨t, ht⟩ := hr.cursor
    exact ⟨.one t, by simp [ht, Except.map]⟩
  | many l =>
    have ht : ∀ i, ∃ t, i < m → pyIdx b.dtime (ys i).k = .ok t := by
      intro i
      by_cases hi : i < m
      · obtain ⟨t, ht⟩ := hr.index i hi
        exact ⟨t, fun _ => ht⟩
      · obtain ⟨t, ht⟩ := hr.cursor
        exact ⟨t, fun h => absurd h hi⟩
    choose t ht using ht
    rw [hv] at h
    obtain ⟨c, h1, -⟩ := h.mapE hm (pyIdx b.dtime) t ht
    exact ⟨c, h1⟩

/-- The boundary coordinates are known. -/
structure Known (v : VD) (m : ℕ) (ys : ℕ → Pt) : Prop where
  lat : ∃ f : ℕ → ℝ, Reads v.ocbLat m fun i => some (f i)
  mlt : ∃ f : ℕ → ℝ, Reads v.ocbMlt m fun i => some (f i)
  rc : Reads v.rCorr m fun i => some (ys i).rc

theorem Known.there {v : VD} {m : ℕ} {ys : ℕ → Pt} (h : Known v m ys) (hm : 0 < m) : coordsMissing v = false := by
  obtain ⟨⟨f, hf⟩, ⟨g, hg⟩, hr⟩ := h
  unfold coordsMissing
  rw [hf.notNan hm, hg.notNan hm, hr.notNan hm]; rfl

/-- `set_ocb` after the boundary coordinates are there. -/
theorem after_fill {b : Bnd} {v v1 : VD} {rec' : ℤ} {m : ℕ} {ys : ℕ → Pt} (hm : 0 < m) (h : Holds v m ys)
    (hr : InRange b m ys) (conv : VD → Arr Tod → ℤ → Except PyErr VD) (f : Option (F → F → F → F))
    (hfill : fillCoords b v = .ok (v1, rec')) (hk : Known v1 m ys) :
    setOcb conv b f v = ((poleStep b v1).bind (rotateStep f)).map fun w => (w, rec') := by
  obtain ⟨ts, hts⟩ := timesOf_ok hm h.ocbInd hr
  unfold setOcb
  rw [hts]
  simp only [bind, Except.bind]
  rw [if_neg (by rw [h.vect]; simp)]
  simp only
  rw [hfill]
  simp only
  rw [hk.there hm]
  simp only [Bool.false_eq_true, if_false]
  cases poleStep b v1 with
  | error e => rfl
  | ok w =>
    simp only
    cases rotateStep f w <;> rfl

/-- Where the boundary coordinates come from: they are known already; or they are missing and `normal_coord` finds
them, all at once for a single index, one index at a time otherwise (one location per index, or one location for all).
`normal_coord` must leave the latitudes alone (see C31). -/
inductive Located (b : Bnd) (v : VD) (m : ℕ) (ys : ℕ → Pt) : Prop
  | known (h : Known v m ys)
  | single (k : ℤ) (la ml rc : Arr F) (f g : ℕ → ℝ) (missing : Gap v) (ind : v.ocbInd = .one k)
      (out : b.normal k v.lat v.lt "magnetic" v.height = .ok (v.lat, la, ml, rc))
      (hla : Reads la m fun i => some (f i)) (hml : Reads ml m fun i => some (g i))
      (hrc : Reads rc m fun i => some (ys i).rc)
  | each (ht : ℕ → F) (f g : ℕ → ℝ) (f0 g0 h0 : ℕ → F) (missing : Gap v)
      (ind : v.ocbInd = .many ((List.range m).map fun i => (ys i).k)) (dat : v.datInd.shape = some m)
      (lat : v.lat = .many ((List.range m).map fun i => some (ys i).da))
      (lt : v.lt = .many ((List.range m).map fun i => some (ys i).dl))
      (height : v.height = .many ((List.range m).map ht))
      (hla : v.ocbLat = .many ((List.range m).map f0)) (hml : v.ocbMlt = .many ((List.range m).map g0))
      (hrc : v.rCorr = .many ((List.range m).map h0))
      (out : ∀ i, i < m → ∃ lat', b.normal (ys i).k (.one (some (ys i).da)) (.one (some (ys i).dl)) "magnetic" (.one (ht i)) =
        .ok (lat', .one (some (f i)), .one (some (g i)), .one (some (ys i).rc)))
  | fixed (d : ℤ) (f g : ℕ → ℝ) (f0 g0 h0 : ℕ → F) (missing : Gap v)
      (ind : v.ocbInd = .many ((List.range m).map fun i => (ys i).k)) (dat : v.datInd = .one d)
      (hla : v.ocbLat = .many ((List.range m).map f0)) (hml : v.ocbMlt = .many ((List.range m).map g0))
      (hrc : v.rCorr = .many ((List.range m).map h0))
      (out : ∀ i, i < m → b.normal (ys i).k v.lat v.lt "magnetic" v.height =
        .ok (v.lat, .one (some (f i)), .one (some (g i)), .one (some (ys i).rc)))

theorem range_set {α : Type*} (m i : ℕ) (f : ℕ → α) (y : α) :
    ((List.range m).map f).set i y = (List.range m).map fun j => if j = i then y else f j := by
  apply List.ext_getElem?
  intro j
  rw [List.getElem?_set]
  by_cases hj : i = j
  · subst hj
    simp only [if_true, List.length_map, List.length_range, List.getElem?_map]
    by_cases hi : i < m
    · rw [if_pos hi]; simp [hi]
    · rw [if_neg hi]; simp [hi]
  · rw [if_neg hj]
    simp only [List.getElem?_map]
    by_cases hi : j < m
    · simp [hi, Ne.symm hj]
    · simp [hi]

/-- The first `i` boundary coordinates filled in. -/
def fillTo (v : VD) (m i : ℕ) (f g h f0 g0 h0 : ℕ → F) : VD :=
  { v with
    ocbLat := .many ((List.range m).map fun j => if j < i then f j else f0 j)
    ocbMlt := .many ((List.range m).map fun j => if j < i then g j else g0 j)
    rCorr := .many ((List.range m).map fun j => if j < i then h j else h0 j) }

theorem fill_next {m i : ℕ} (f f0 : ℕ → F) :
    ((List.range m).map fun j => if j < i then f j else f0 j).set i (f i) =
      (List.range m).map fun j => if j < i + 1 then f j else f0 j := by
  rw [range_set]
  refine range_congr fun j _ => ?_
  by_cases h1 : j = i
  · subst h1; simp
  · rw [if_neg h1]
    by_cases h2 : j < i
    · rw [if_pos h2, if_pos (by omega)]
    · rw [if_neg h2, if_neg (by omega)]

theorem normalLoop_fill {b : Bnd} {v : VD} {m : ℕ} (K : ℕ → ℤ) (f g h f0 g0 h0 : ℕ → F)
    (step : ∀ i, i < m → ∀ l, normalLoop b (fillTo v m i f g h f0 g0 h0) i (K i :: l) =
      normalLoop b (fillTo v m (i + 1) f g h f0 g0 h0) (i + 1) l) (d : ℕ) : ∀ i, i + d = m →
    normalLoop b (fillTo v m i f g h f0 g0 h0) i (((List.range m).map K).drop i) =
      .ok (fillTo v m m f g h f0 g0 h0) := by
  induction d with
  | zero =>
    intro i hi
    have : i = m := by omega
    subst this
    rw [List.drop_eq_nil_of_le (by simp)]
    rfl
  | succ d ih =>
    intro i hi
    have hlt : i < ((List.range m).map K).length := by simp; omega
    rw [List.drop_eq_getElem_cons hlt]
    simp only [List.getElem_map, List.getElem_range]
    rw [step i (by omega), ih (i + 1) (by omega)]

theorem fillTo_zero {v : VD} {m : ℕ} {f g h f0 g0 h0 : ℕ → F} (hla : v.ocbLat = .many ((List.range m).map f0))
    (hml : v.ocbMlt = .many ((List.range m).map g0)) (hrc : v.rCorr = .many ((List.range m).map h0)) :
    fillTo v m 0 f g h f0 g0 h0 = v := by
  unfold fillTo
  simp only [Nat.not_lt_zero, if_false]
  rw [← hla, ← hml, ← hrc]

theorem fillTo_all (v : VD) (m : ℕ) (f g h f0 g0 h0 : ℕ → F) :
    fillTo v m m f g h f0 g0 h0 = { v with
      ocbLat := .many ((List.range m).map f), ocbMlt := .many ((List.range m).map g)
      rCorr := .many ((List.range m).map h) } := by
  unfold fillTo
  rw [range_congr (f := fun j => if j < m then f j else f0 j) fun i hi => if_pos hi,
    range_congr (f := fun j => if j < m then g j else g0 j) fun i hi => if_pos hi,
    range_congr (f := fun j => if j < m then h j else h0 j) fun i hi => if_pos hi]

theorem spread_one {α : Type*} (k : ℤ) (a : Arr α) : spread (.one k) a = a := by cases a <;> rfl

theorem fill_ok {b : Bnd} {v : VD} {m : ℕ} {ys : ℕ → Pt} (hm : 0 < m) (h : Holds v m ys) (hl : Located b v m ys) :
    ∃ v1 rec', fillCoords b v = .ok (v1, rec') ∧ Holds v1 m ys ∧ Known v1 m ys ∧ v1.datInd = v.datInd ∧
      v1.ocbInd = v.ocbInd ∧ SameVec v v1 ∧ v1.scaleFunc = v.scaleFunc := by
  have many : ∀ (f g : ℕ → ℝ) (f0 g0 h0 : ℕ → F), Gap v →
      v.ocbInd = .many ((List.range m).map fun i => (ys i).k) → v.ocbLat = .many ((List.range m).map f0) →
      v.ocbMlt = .many ((List.range m).map g0) → v.rCorr = .many ((List.range m).map h0) →
      (∀ i, i < m → ∀ l,
        normalLoop b (fillTo v m i (fun i => some (f i)) (fun i => some (g i)) (fun i => some (ys i).rc) f0 g0 h0) i
            ((ys i).k :: l) =
          normalLoop b (fillTo v m (i + 1) (fun i => some (f i)) (fun i => some (g i)) (fun i => some (ys i).rc)
            f0 g0 h0) (i + 1) l) →
      ∃ v1 rec', fillCoords b v = .ok (v1, rec') ∧ Holds v1 m ys ∧ Known v1 m ys ∧ v1.datInd = v.datInd ∧
        v1.ocbInd = v.ocbInd ∧ SameVec v v1 ∧ v1.scaleFunc = v.scaleFunc := by
    intro f g f0 g0 h0 missing ind hla hml hrc step
    have hloop := normalLoop_fill (fun i => (ys i).k) _ _ _ f0 g0 h0 step m 0 (by omega)
    rw [fillTo_zero hla hml hrc, fillTo_all, List.drop_zero] at hloop
    refine ⟨{ v with
      ocbLat := .many ((List.range m).map fun i => some (f i)), ocbMlt := .many ((List.range m).map fun i => some (g i))
      rCorr := .many ((List.range m).map fun i => some (ys i).rc) },
      ((List.range m).map fun i => (ys i).k).getLastD b.recInd, ?_, ⟨h.1, h.2, h.3, h.4, h.5, h.6, h.7, h.8, h.9⟩,
      ⟨⟨f, .inr rfl⟩, ⟨g, .inr rfl⟩, .inr rfl⟩, rfl, rfl, ⟨rfl, rfl, rfl⟩, rfl⟩
    unfold fillCoords
    rw [if_pos ((gap_iff v).2 missing)]
    split
    · rename_i k hk
      rw [ind] at hk; exact absurd hk (by simp)
    · rename_i ks hk
      rw [ind] at hk
      cases hk
      simp only [bind, Except.bind]
      rw [hloop]
      rfl
  cases hl with
  | known hk =>
    refine ⟨v, b.recInd, ?_, h, hk, rfl, rfl, ⟨rfl, rfl, rfl⟩, rfl⟩
    unfold fillCoords
    rw [hk.there hm]
    rfl
  | single k la ml rc f g missing ind out hla hml hrc =>
    refine ⟨{ v with ocbLat := la, ocbMlt := ml, rCorr := rc }, k, ?_,
      ⟨h.1, h.2, h.3, h.4, h.5, h.6, h.7, h.8, h.9⟩, ⟨⟨f, hla⟩, ⟨g, hml⟩, hrc⟩, rfl, rfl, ⟨rfl, rfl, rfl⟩, rfl⟩
    unfold fillCoords
    rw [if_pos ((gap_iff v).2 missing)]
    split
    · rename_i k' hk
      rw [ind] at hk
      cases hk
      rw [h.loc, out, ind]
      simp only [bind, Except.bind, pure, Except.pure, spread_one]
    · rename_i ks hk
      rw [ind] at hk; exact absurd hk (by simp)
  | each ht f g f0 g0 h0 missing ind dat lat lt height hla hml hrc out =>
    refine many f g f0 g0 h0 missing ind hla hml hrc fun i hi l => ?_
    obtain ⟨lat', ho⟩ := out i hi
    have e1 : v.lat.entries[i]? = some (some (ys i).da) := by rw [lat]; simp [Arr.entries, hi]
    have e2 : v.lt.entries[i]? = some (some (ys i).dl) := by rw [lt]; simp [Arr.entries, hi]
    have e3 : v.height.entries[i]? = some (ht i) := by rw [height]; simp [Arr.entries, hi]
    have hsh : v.ocbInd.shape = v.datInd.shape := by rw [dat, ind]; simp [Arr.shape]
    rw [normalLoop]
    simp only [fillTo, hsh, if_true, e1, e2, e3, h.loc, ho, bind, Except.bind, Except.map, single, fill_next (f := fun i => some (f i)),
      fill_next (f := fun i => some (g i)), fill_next (f := fun i => some (ys i).rc)]
  | fixed d f g f0 g0 h0 missing ind dat hla hml hrc out =>
    refine many f g f0 g0 h0 missing ind hla hml hrc fun i hi l => ?_
    have hsh : ¬ v.ocbInd.shape = v.datInd.shape := by rw [dat, ind]; simp [Arr.shape]
    rw [normalLoop]
    simp only [fillTo, hsh, if_false, h.loc, out i hi, bind, Except.bind, single, fill_next (f := fun i => some (f i)),
      fill_next (f := fun i => some (g i)), fill_next (f := fun i => some (ys i).rc)]

/-- C69: after `set_ocb` the north component of every vector is its component towards the centre of its boundary
circle and the east component the one to the right of that direction; the magnitudes are unchanged and the unscaled
radius is that of the circle with its correction.  For single vectors and arrays, single indices and arrays, an
`OCBoundary` and the OCB of a `DualBoundary`.  A single vector with an array of indices needs circles off the magnetic
pole (see C74). -/
theorem C69_geometry (conv : VD → Arr Tod → ℤ → Except PyErr VD) (b : Bnd) (v : VD) (m : ℕ) (ys : ℕ → Pt) (hm : 0 < m)
    (h : Holds v m ys) (hg : ∀ i, i < m → (ys i).Good b) (hr : InRange b m ys) (hl : Located b v m ys)
    (hs : (∀ i, i < m → 0 < (ys i).rho) ∨ v.vectN.shape ≠ none ∨ m = 1) (hf : v.scaleFunc = none) :
    ∃ w rec' u, setOcb conv b none v = .ok (w, rec') ∧
      (Reads w.ocbN m fun i =>
        some (towards (place (ys i).da (ys i).dl) (place (90 - (ys i).rho) ((ys i).phi / 15))
          (horiz (ys i).da (ys i).dl (ys i).n (ys i).e))) ∧
      (Reads w.ocbE m fun i =>
        some (rightOf (place (ys i).da (ys i).dl) (place (90 - (ys i).rho) ((ys i).phi / 15))
          (horiz (ys i).da (ys i).dl (ys i).n (ys i).e))) ∧
      (Reads w.ocbZ m fun i => some (ys i).z) ∧
      (Reads w.ocbMag m fun i => some (√((ys i).n ^ 2 + (ys i).e ^ 2 + (ys i).z ^ 2))) ∧
      w.unscaledR = some u ∧ Reads u m fun i => some ((ys i).r + (ys i).rc) := by
  obtain ⟨v1, rec', f1, f2, f3, -, -, f6, f7⟩ := fill_ok hm h hl
  obtain ⟨v2, p1, p2, p3, p4, -⟩ := poleStep_ok hm f2 (fun i hi => (hg i hi).toBase) f3.rc
  obtain ⟨v3, r1, r2, r3, r4, r5, -⟩ := rotateStep_start hm p2 (fun i hi => (hg i hi).toBase) none
  have hf3 : v3.scaleFunc = none := by rw [r3, p3, f7, hf]
  have hpick : pickScale none v3 = v3 := by
    unfold pickScale
    rw [hf3]
    cases v3; cases hf3; rfl
  rw [hpick] at r1
  obtain ⟨w, s1, s2, s3, s4, s5, s6⟩ := scaleVector_plain hm r2 hg (by rw [r4.1, p4.1, f6.1]; exact hs) hf3
  obtain ⟨u, u1, u2⟩ := p2.unscaled
  refine ⟨w, rec', u, ?_, s2, s3, s4, s5.congr fun i hi => ?_, by rw [s6, r5, u1], u2⟩
  · rw [after_fill hm h hr conv none f1 f3, p1]
    show ((rotateStep none v2).map fun w => (w, rec')) = _
    rw [r1, s1]
    rfl
  · show some (√((ys i).north ^ 2 + (ys i).east ^ 2 + (ys i).z ^ 2)) = _
    rw [(hg i hi).mag]

/-- C69 with scaling, for arrays: the components just described go through the scale function with the corrected
radius of the circle and the reference radius `90 - |boundary_lat|`, and the magnitude is that of the scaled components.
The function is the one of the object, or the one passed if the object has none.  For a single vector and a single index the code
scales the components before the rotation, see `C49_single_refuted`. -/
theorem C69_scaled_arrays (conv : VD → Arr Tod → ℤ → Except PyErr VD) (b : Bnd) (v : VD) (m : ℕ) (ys : ℕ → Pt)
    (hm : 0 < m) (h : Holds v m ys) (hg : ∀ i, i < m → (ys i).Good b) (hr : InRange b m ys) (hl : Located b v m ys)
    (hs : (∀ i, i < m → 0 < (ys i).rho) ∨ v.vectN.shape ≠ none ∨ m = 1) (f : F → F → F → F)
    (fa : Option (F → F → F → F)) (hf : (v.scaleFunc = none ∧ fa = some f) ∨ v.scaleFunc = some f) (hmany : v.datInd.shape ≠ none ∨ v.ocbInd.shape ≠ none) :
    ∃ w rec', setOcb conv b fa v = .ok (w, rec') ∧
      (Reads w.ocbN m fun i =>
        f (some (towards (place (ys i).da (ys i).dl) (place (90 - (ys i).rho) ((ys i).phi / 15))
          (horiz (ys i).da (ys i).dl (ys i).n (ys i).e))) (some ((ys i).r + (ys i).rc)) (some (90 - |b.blat|))) ∧
      (Reads w.ocbE m fun i =>
        f (some (rightOf (place (ys i).da (ys i).dl) (place (90 - (ys i).rho) ((ys i).phi / 15))
          (horiz (ys i).da (ys i).dl (ys i).n (ys i).e))) (some ((ys i).r + (ys i).rc)) (some (90 - |b.blat|))) ∧
      (Reads w.ocbZ m fun i => f (some (ys i).z) (some ((ys i).r + (ys i).rc)) (some (90 - |b.blat|))) ∧
      ∃ N E Z : ℕ → F, Reads w.ocbN m N ∧ Reads w.ocbE m E ∧ Reads w.ocbZ m Z ∧
        Reads w.ocbMag m fun i => mag3 ((N i, E i), Z i) := by
  obtain ⟨v1, rec', f1, f2, f3, f4, f5, f6, f7⟩ := fill_ok hm h hl
  obtain ⟨v2, p1, p2, p3, p4, p5, p6, s, ps, pr⟩ := poleStep_ok hm f2 (fun i hi => (hg i hi).toBase) f3.rc
  obtain ⟨v3, r1, r2, r3, r4, r5, r6, r7, r8⟩ := rotateStep_start hm p2 (fun i hi => (hg i hi).toBase) fa
  have hf3 : (pickScale fa v3).scaleFunc = some f := by
    have : v3.scaleFunc = v.scaleFunc := by rw [r3, p3, f7]
    unfold pickScale
    rcases hf with ⟨hf, hfa⟩ | hf
    · rw [this, hf]; exact hfa
    · rw [this, hf]; exact this.trans hf
  have hsame : pickScale fa v3 = { v3 with scaleFunc := some f } := by
    unfold pickScale at hf3 ⊢
    cases hv : v3.scaleFunc with
    | none => rw [hv] at hf3; simp only at hf3 ⊢; rw [hf3]
    | some g =>
      rw [hv] at hf3
      have : g = f := Option.some.inj (hv.symm.trans hf3)
      subst this
      cases v3; cases hv; rfl
  have hq : HasQuads (pickScale fa v3) m ys := by
    rw [hsame]
    exact ⟨⟨⟨r2.1.1.1, r2.1.1.2, r2.1.1.3, r2.1.1.4, r2.1.1.5, r2.1.1.6, r2.1.1.7, r2.1.1.8, r2.1.1.9⟩, r2.1.2, r2.1.3, r2.1.4⟩,
      r2.2, r2.3, r2.4⟩
  obtain ⟨w, s1, s2, s3, s4, s5⟩ := scaleVector_scaled hm hq hg (by
      rw [hsame]
      show _ ∨ v3.vectN.shape ≠ none ∨ _
      rw [r4.1, p4.1, f6.1]; exact hs) f hf3 (by
      rw [hsame]
      show v3.lt.shape ≠ none ∨ v3.aacgmMlt.shape ≠ none
      rcases hmany with hd | hd
      · left; intro hc; have := r7 hc; rw [p5, f4] at this; exact hd this
      · right; rw [r8]; intro hc; have := p6 hc; rw [f5] at this; exact hd this) (some (90 - |b.blat|)) s
    (by rw [hsame]; show v3.scaledR = _; rw [r6, ps]) pr
  refine ⟨w, rec', ?_, s2, s3, s4, _, _, _, s2, s3, s4, s5⟩
  rw [after_fill hm h hr conv fa f1 f3, p1]
  show ((rotateStep fa v2).map fun w => (w, rec')) = _
  rw [r1, s1]
  rfl

/-! ## An example for C69 -/

/-- Two vectors, measured at 75 degrees and 3 h and at 80 degrees and 4 h, with two circles centred 5 degrees from the
magnetic pole at 12 h and 6 degrees at 6 h. -/
noncomputable def exPt : ℕ → Pt
  | 0 => { da := 75, dl := 3, n := 50, e := 86, z := 5, rc := 0, k := 0, j := 0, r := 15, phi := 180, rho := 5 }
  | _ => { da := 80, dl := 4, n := -20, e := 0, z := 1, rc := 1, k := 1, j := 1, r := 16, phi := 90, rho := 6 }

/-- The boundary object with these two circles. -/
noncomputable def exBnd (t : Tod) : Bnd :=
  { hem := 1, recInd := 0, dtime := [t, t], blat := 74, r := [15, 16], phiCent := [180, 90], rCent := [5, 6]
    pairs := none, normal := fun _ _ _ _ _ => .error .valueError }

/-- The object with these two vectors and known boundary coordinates. -/
noncomputable def exVD : VD :=
  { datInd := .many [0, 1], ocbInd := .many ((List.range 2).map fun i => (exPt i).k)
    lat := .many ((List.range 2).map fun i => some (exPt i).da)
    lt := .many ((List.range 2).map fun i => some (exPt i).dl)
    height := .many [some 350, some 350]
    vectN := .many ((List.range 2).map fun i => some (exPt i).n)
    vectE := .many ((List.range 2).map fun i => some (exPt i).e)
    vectZ := .many ((List.range 2).map fun i => some (exPt i).z)
    vectMag := .many [none, none], locCoord := "magnetic", vectCoord := "magnetic"
    ocbLat := .many ((List.range 2).map fun _ => some 80), ocbMlt := .many ((List.range 2).map fun _ => some 2)
    rCorr := .many ((List.range 2).map fun i => some (exPt i).rc), vshape := some 2
    ocbN := .many [none, none], ocbE := .many [none, none], ocbZ := .many [none, none], ocbMag := .many [none, none]
    ocbQuad := .many [0, 0], vecQuad := .many [0, 0], poleAngle := .many [none, none], aacgmLat := .many [none, none]
    aacgmMlt := .many [none, none], unscaledR := none, scaledR := none, scaleFunc := none }

theorem exPt_good (t : Tod) (i : ℕ) (hi : i < 2) : (exPt i).Good (exBnd t) := by
  have h : i = 0 ∨ i = 1 := by omega
  rcases h with rfl | rfl
  · refine ⟨⟨rfl, rfl, rfl, rfl, ?_, ?_, ?_⟩, fun k hk => ?_, ?_⟩
    · norm_num [exPt]
    · norm_num [exPt]
    · norm_num [exPt]
    · exact not_twelfth (x := 9) (by norm_num) (by norm_num) k (by simp only [exPt] at hk; linarith)
    · norm_num [exPt]
  · refine ⟨⟨rfl, rfl, rfl, rfl, ?_, ?_, ?_⟩, fun k hk => ?_, ?_⟩
    · norm_num [exPt]
    · norm_num [exPt]
    · norm_num [exPt]
    · exact not_twelfth (x := 2) (by norm_num) (by norm_num) k (by simp only [exPt] at hk; linarith)
    · norm_num [exPt]

theorem exVD_holds : Holds exVD 2 exPt :=
  ⟨.inr rfl, .inr rfl, .inr rfl, .inr rfl, .inr rfl, .inr rfl, .inr rfl, rfl, rfl⟩

theorem exRange (t : Tod) : InRange (exBnd t) 2 exPt := by
  refine ⟨⟨t, rfl⟩, fun i hi => ⟨t, ?_⟩⟩
  have h : i = 0 ∨ i = 1 := by omega
  rcases h with rfl | rfl <;> rfl

/-- The hypotheses of both theorems are met. -/
example (t : Tod) : 0 < 2 ∧ Holds exVD 2 exPt ∧ (∀ i, i < 2 → (exPt i).Good (exBnd t)) ∧ InRange (exBnd t) 2 exPt ∧
    Located (exBnd t) exVD 2 exPt ∧ exVD.vectN.shape ≠ none ∧ exVD.scaleFunc = none ∧ exVD.datInd.shape ≠ none :=
  ⟨by norm_num, exVD_holds, exPt_good t, exRange t,
    .known ⟨⟨fun _ => 80, .inr rfl⟩, ⟨fun _ => 2, .inr rfl⟩, .inr rfl⟩, by simp [exVD, Arr.shape], rfl,
    by simp [exVD, Arr.shape]⟩

end Ocb.Scale
