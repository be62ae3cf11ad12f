import Verif.Model.Track
import Verif.Lemmas.Time
import Verif.Lemmas.Basic
import Mathlib.Tactic.FieldSimp
import Mathlib.Tactic.Linarith
import Mathlib.Tactic.NormNum
import Mathlib.Tactic.Positivity
import Mathlib.Tactic.Ring

/-! # C62, C88: the satellite track mask -/

set_option autoImplicit false

namespace Ocb.Track

open Ocb.Time Real

/-! ## Specification -/

/-- The place of a point in the polar plane: the colatitude of the given hemisphere along the radius of the local
time, with dawn (6 h) on the positive x-axis. -/
noncomputable def spot (h lat mlt : ℝ) : ℝ × ℝ :=
  ((90 - h * lat) * cos ((mlt - 6) * π / 12), (90 - h * lat) * sin ((mlt - 6) * π / 12))

/-- `q` lies on the straight line through the two crossings. -/
def OnLine (a : Args) (q : ℝ × ℝ) : Prop := (q.1 - a.x1) * (a.y2 - a.y1) = (q.2 - a.y1) * (a.x2 - a.x1)

/-- `p` is at most the allowed differences along the axes away from some point of the line. -/
def Near (a : Args) (p : ℝ × ℝ) : Prop := ∃ q, OnLine a q ∧ |p.1 - q.1| ≤ a.delX ∧ |p.2 - q.2| ≤ a.delY

/-- The squared distance from a crossing. -/
def gap (x y : ℝ) (p : ℝ × ℝ) : ℝ := (x - p.1) ^ 2 + (y - p.2) ^ 2

/-- The latitude of the point reaches that of the nearest crossing, less the allowed distance past it. -/
def Poleward (a : Args) (lat : ℝ) (p : ℝ × ℝ) : Prop :=
  (gap a.x1 a.y1 p ≤ gap a.x2 a.y2 p → 90 - √(a.x1 ^ 2 + a.y1 ^ 2) - a.past ≤ lat) ∧
    (gap a.x2 a.y2 p < gap a.x1 a.y1 p → 90 - √(a.x2 ^ 2 + a.y2 ^ 2) - a.past ≤ lat)

/-- The arguments that the function accepts. -/
def Good (a : Args) : Prop := 0 ≤ a.delX ∧ 0 ≤ a.delY ∧ 0 ≤ a.past ∧ (a.hemi = 1 ∨ a.hemi = -1)

/-! ## Lemmas -/

theorem place_eq (h lat mlt : ℝ) : place h lat mlt = .ok (spot h lat mlt) := by
  obtain ⟨k, hk⟩ := fixVal_congr ((mlt - 6) * π / 12) (2 * π - 2 * π) (2 * π) (2 * π) (by positivity)
  simp only [place, hr2rad_ok, hk, spot, bind, Except.bind, pure, Except.pure, cos_add_int_mul_two_pi,
    sin_add_int_mul_two_pi]

theorem mark_eq (a : Args) (q : ℝ × ℝ) : mark a q = .ok (keep a q.1 (spot a.hemi q.1 q.2)) := by
  simp only [mark, place_eq, bind, Except.bind, pure, Except.pure]

theorem satTrack_eq {a : Args} (ha : Good a) (pts : List (ℝ × ℝ)) :
    satTrack a pts = .ok (pts.map fun q => keep a q.1 (spot a.hemi q.1 q.2)) := by
  obtain ⟨h1, h2, h3, h4⟩ := ha
  rw [satTrack, if_neg (by rw [not_or]; exact ⟨not_lt.2 h1, not_lt.2 h2⟩), if_neg (not_lt.2 h3), if_neg (not_not.2 h4)]
  exact mapE_map fun q _ => mark_eq a q

theorem keep_iff (a : Args) (lat : ℝ) (p : ℝ × ℝ) :
    keep a lat p = true ↔ inBand a p = true ∧ Poleward a |lat| p := by
  have h1 : sep a.x1 a.y1 p ≤ sep a.x2 a.y2 p ↔ gap a.x1 a.y1 p ≤ gap a.x2 a.y2 p := by
    rw [sep, sep, gap, gap]
    exact Real.sqrt_le_sqrt_iff (by positivity)
  rw [keep]
  by_cases hb : inBand a p = true
  · rw [if_pos hb]
    by_cases hs : sep a.x1 a.y1 p ≤ sep a.x2 a.y2 p
    · have hg := h1.1 hs
      rw [if_pos hs, Poleward]
      simp only [hb, hg, hg.not_gt, latBound, true_and, forall_true_left, false_imp_iff, and_true, Bool.not_eq_true']
      exact decide_eq_false_iff_not.trans not_lt
    · have hg : ¬ gap a.x1 a.y1 p ≤ gap a.x2 a.y2 p := fun h => hs (h1.2 h)
      rw [if_neg hs, Poleward]
      simp only [hb, hg, not_le.1 hg, latBound, true_and, forall_true_left, false_imp_iff, Bool.not_eq_true']
      exact decide_eq_false_iff_not.trans not_lt
  · simp [hb]

theorem inBand_iff {a : Args} (hx : a.x1 ≠ a.x2) (p : ℝ × ℝ) :
    inBand a p = true ↔ |(p.2 - a.y1) - (a.y1 - a.y2) / (a.x1 - a.x2) * (p.1 - a.x1)| ≤
      a.delY - (a.y1 - a.y2) / (a.x1 - a.x2) * a.delX := by
  have hs : slope a = .fin ((a.y1 - a.y2) / (a.x1 - a.x2)) := by
    rw [slope, Fl.div, if_neg (sub_ne_zero.2 hx)]
  rw [inBand, lowInt, highInt, hs]
  generalize (a.y1 - a.y2) / (a.x1 - a.x2) = m
  simp only [Fl.mul, Fl.sub, Fl.negate, Fl.add, Fl.le, Bool.and_eq_true, decide_eq_true_eq, abs_le]
  constructor <;> rintro ⟨h1, h2⟩ <;> constructor <;> linarith

theorem vertical {a : Args} (hx : a.x1 = a.x2) (p : ℝ × ℝ) : inBand a p = false := by
  have e : ∀ u v : Fl ℝ, (u = .nan ∨ v = .nan ∨ u = .pinf ∨ v = .ninf) →
      (Fl.le u (.fin p.2) && Fl.le (.fin p.2) v) = false := by
    intro u v h
    cases u <;> cases v <;> simp [Fl.le] at h ⊢
  rw [inBand]
  refine e _ _ ?_
  rw [lowInt, highInt, slope, Fl.div, if_pos (sub_eq_zero.2 hx)]
  split_ifs <;> simp only [Fl.mul, Fl.sub, Fl.negate, Fl.add, true_or]
  all_goals split_ifs <;> simp [Fl.add]

theorem onLine_iff {a : Args} (hx : a.x1 ≠ a.x2) (q : ℝ × ℝ) :
    OnLine a q ↔ (q.2 - a.y1) = (a.y1 - a.y2) / (a.x1 - a.x2) * (q.1 - a.x1) := by
  have h := sub_ne_zero.2 hx
  rw [OnLine]
  constructor
  · intro e
    field_simp
    linarith
  · intro e
    rw [e]
    field_simp
    ring

theorem near_of_band {a : Args} (hx : a.x1 ≠ a.x2) (ha : Good a) {p : ℝ × ℝ} (h : inBand a p = true) : Near a p := by
  rw [inBand_iff hx] at h
  obtain ⟨h1, h2, -, -⟩ := ha
  have ho := fun q => onLine_iff (a := a) hx q
  generalize (a.y1 - a.y2) / (a.x1 - a.x2) = m at h ho
  generalize hoff : (p.2 - a.y1) - m * (p.1 - a.x1) = o at h
  by_cases hm : 0 < m
  · refine ⟨(p.1, p.2 - o), (ho _).2 (by simp only; linarith), by simpa using h1, ?_⟩
    have := mul_nonneg hm.le h1
    simp only [sub_sub_cancel]
    linarith
  · by_cases hT : a.delY - m * a.delX = 0
    · rw [hT] at h
      have : o = 0 := abs_eq_zero.1 (le_antisymm h (abs_nonneg _))
      exact ⟨p, (ho _).2 (by linarith), by simpa using h1, by simpa using h2⟩
    · have hp : 0 < a.delY - m * a.delX := lt_of_le_of_ne ((abs_nonneg _).trans h) (Ne.symm hT)
      have hs : |o / (a.delY - m * a.delX)| ≤ 1 := by
        rw [abs_div, abs_of_pos hp, div_le_one hp]
        exact h
      have hso : o / (a.delY - m * a.delX) * (a.delY - m * a.delX) = o := div_mul_cancel₀ _ hT
      generalize o / (a.delY - m * a.delX) = s at hs hso
      refine ⟨(p.1 - s * a.delX, p.2 - s * a.delY), (ho _).2 (by simp only; linarith), ?_, ?_⟩
      · simp only [sub_sub_cancel, abs_mul, abs_of_nonneg h1]
        exact mul_le_of_le_one_left h1 hs
      · simp only [sub_sub_cancel, abs_mul, abs_of_nonneg h2]
        exact mul_le_of_le_one_left h2 hs

theorem band_of_near {a : Args} (hx : a.x1 ≠ a.x2) (hm : (a.y1 - a.y2) / (a.x1 - a.x2) ≤ 0) {p : ℝ × ℝ}
    (h : Near a p) : inBand a p = true := by
  rw [inBand_iff hx]
  obtain ⟨q, hq, h1, h2⟩ := h
  rw [onLine_iff hx] at hq
  generalize (a.y1 - a.y2) / (a.x1 - a.x2) = m at hm hq ⊢
  rw [abs_le] at *
  have e : (p.2 - a.y1) - m * (p.1 - a.x1) = (p.2 - q.2) + (-m) * (p.1 - q.1) := by linarith
  have k1 := mul_le_mul_of_nonneg_left h1.1 (neg_nonneg.2 hm)
  have k2 := mul_le_mul_of_nonneg_left h1.2 (neg_nonneg.2 hm)
  rw [e]
  constructor <;> linarith

/-! ## Theorems -/

/-- C62: the function raises `ValueError` exactly for a negative tolerance or an unknown hemisphere, and otherwise
returns a mask of the length of its input. -/
theorem C62_errors (a : Args) (pts : List (ℝ × ℝ)) :
    (¬ Good a → satTrack a pts = .error .valueError) ∧
      (Good a → ∃ mask, satTrack a pts = .ok mask ∧ mask.length = pts.length) := by
  constructor
  · intro hn
    rw [satTrack]
    by_cases h1 : a.delX < 0 ∨ a.delY < 0
    · rw [if_pos h1]
    by_cases h2 : a.past < 0
    · rw [if_neg h1, if_pos h2]
    rw [if_neg h1, if_neg h2, if_pos]
    intro h4
    rw [not_or, not_lt, not_lt] at h1
    exact hn ⟨h1.1, h1.2, not_lt.1 h2, h4⟩
  · intro ha
    exact ⟨_, satTrack_eq ha pts, by simp⟩

/-- C62, first half: every marked point is within the tolerances of the line through the crossings and its latitude
reaches that of the nearest crossing, less the allowed distance. -/
theorem C62_sound (a : Args) (pts : List (ℝ × ℝ)) (mask : List Bool) (h : satTrack a pts = .ok mask) (i : ℕ)
    (lat mlt : ℝ) (hi : pts[i]? = some (lat, mlt)) (hm : mask[i]? = some true) :
    a.x1 ≠ a.x2 ∧ Near a (spot a.hemi lat mlt) ∧ Poleward a |lat| (spot a.hemi lat mlt) := by
  have ha : Good a := by
    by_contra hn
    rw [(C62_errors a pts).1 hn] at h
    simp at h
  rw [satTrack_eq ha, Except.ok.injEq] at h
  subst h
  simp only [List.getElem?_map, hi, Option.map_some, Option.some.injEq, keep_iff] at hm
  have hx : a.x1 ≠ a.x2 := by
    intro hx
    rw [vertical hx] at hm
    exact absurd hm.1 (by simp)
  exact ⟨hx, near_of_band hx ha hm.1, hm.2⟩

/-- C62: with a track that does not rise (slope at most zero), the marked points are exactly those near the line whose
latitude is high enough.  What is missing: rising tracks, for which the tolerance along x narrows the band, see
`C62_rising_refuted`. -/
theorem C62_exact_partial (a : Args) (ha : Good a) (hx : a.x1 ≠ a.x2) (hm : (a.y1 - a.y2) / (a.x1 - a.x2) ≤ 0)
    (pts : List (ℝ × ℝ)) :
    ∃ mask, satTrack a pts = .ok mask ∧ ∀ (i : ℕ) (lat mlt : ℝ), pts[i]? = some (lat, mlt) →
      (mask[i]? = some true ↔ Near a (spot a.hemi lat mlt) ∧ Poleward a |lat| (spot a.hemi lat mlt)) := by
  refine ⟨_, satTrack_eq ha pts, ?_⟩
  intro i lat mlt hi
  simp only [List.getElem?_map, hi, Option.map_some, Option.some.injEq, keep_iff]
  exact and_congr_left fun _ => ⟨near_of_band hx ha, band_of_near hx hm⟩

theorem norm_between {x1 y1 x2 y2 t R : ℝ} (h0 : 0 ≤ t) (h1 : t ≤ 1) (hR : 0 ≤ R) (ha : x1 ^ 2 + y1 ^ 2 ≤ R ^ 2)
    (hb : x2 ^ 2 + y2 ^ 2 ≤ R ^ 2) :
    (x1 + t * (x2 - x1)) ^ 2 + (y1 + t * (y2 - y1)) ^ 2 ≤ R ^ 2 := by
  have e : (x1 + t * (x2 - x1)) ^ 2 + (y1 + t * (y2 - y1)) ^ 2 =
      (1 - t) * (x1 ^ 2 + y1 ^ 2) + t * (x2 ^ 2 + y2 ^ 2) - t * (1 - t) * ((x2 - x1) ^ 2 + (y2 - y1) ^ 2) := by ring
  have k1 := mul_le_mul_of_nonneg_left ha (sub_nonneg.2 h1)
  have k2 := mul_le_mul_of_nonneg_left hb h0
  have k3 : 0 ≤ t * (1 - t) * ((x2 - x1) ^ 2 + (y2 - y1) ^ 2) :=
    mul_nonneg (mul_nonneg h0 (sub_nonneg.2 h1)) (by positivity)
  rw [e]
  linarith

theorem spot_norm (h lat mlt : ℝ) : (spot h lat mlt).1 ^ 2 + (spot h lat mlt).2 ^ 2 = (90 - h * lat) ^ 2 := by
  rw [spot]
  have := cos_sq_add_sin_sq ((mlt - 6) * π / 12)
  linear_combination (90 - h * lat) ^ 2 * this

/-- C62, second half: every point on the segment between the crossings is marked if the track does not rise more
steeply than `delY / delX` and the colatitudes of the crossings differ by at most the allowed distance past the
boundary.  What is missing: the other tracks, see `C62_rising_refuted`, `C62_vertical_refuted` and
`C62_between_refuted`. -/
theorem C62_between_partial (a : Args) (ha : Good a) (hx : a.x1 ≠ a.x2)
    (hm : (a.y1 - a.y2) / (a.x1 - a.x2) * a.delX ≤ a.delY)
    (hd : |√(a.x1 ^ 2 + a.y1 ^ 2) - √(a.x2 ^ 2 + a.y2 ^ 2)| ≤ a.past)
    (pts : List (ℝ × ℝ)) :
    ∃ mask, satTrack a pts = .ok mask ∧ ∀ (i : ℕ) (lat mlt t : ℝ), pts[i]? = some (lat, mlt) →
      |lat| ≤ 90 → 0 ≤ t → t ≤ 1 →
      spot a.hemi lat mlt = (a.x1 + t * (a.x2 - a.x1), a.y1 + t * (a.y2 - a.y1)) → mask[i]? = some true := by
  refine ⟨_, satTrack_eq ha pts, ?_⟩
  intro i lat mlt t hi hl h0 h1 hp
  simp only [List.getElem?_map, hi, Option.map_some, Option.some.injEq, keep_iff]
  have hh : a.hemi * lat ≤ |lat| := by
    rcases ha.2.2.2 with e | e <;> rw [e]
    · rw [one_mul]; exact le_abs_self _
    · rw [neg_one_mul]; exact neg_le_abs _
  constructor
  · rw [inBand_iff hx, hp]
    have h := sub_ne_zero.2 hx
    have e : a.y1 + t * (a.y2 - a.y1) - a.y1 -
        (a.y1 - a.y2) / (a.x1 - a.x2) * (a.x1 + t * (a.x2 - a.x1) - a.x1) = 0 := by
      field_simp
      ring
    simp only [e, abs_zero]
    linarith
  · have hn := spot_norm a.hemi lat mlt
    have hc : 0 ≤ 90 - a.hemi * lat := by linarith
    have key : ∀ R : ℝ, 0 ≤ R → √(a.x1 ^ 2 + a.y1 ^ 2) ≤ R → √(a.x2 ^ 2 + a.y2 ^ 2) ≤ R → 90 - R ≤ |lat| := by
      intro R hR k1 k2
      have b := norm_between (t := t) h0 h1 hR ((Real.sqrt_le_left hR).1 k1) ((Real.sqrt_le_left hR).1 k2)
      rw [hp] at hn
      rw [hn] at b
      have := (le_abs_self _).trans (abs_le_of_sq_le_sq b hR)
      linarith
    rw [abs_le] at hd
    have p0 := ha.2.2.1
    have q1 := Real.sqrt_nonneg (a.x1 ^ 2 + a.y1 ^ 2)
    have q2 := Real.sqrt_nonneg (a.x2 ^ 2 + a.y2 ^ 2)
    refine ⟨fun _ => ?_, fun _ => ?_⟩
    · have := key (√(a.x1 ^ 2 + a.y1 ^ 2) + a.past) (by linarith) (by linarith) (by linarith)
      linarith
    · have := key (√(a.x2 ^ 2 + a.y2 ^ 2) + a.past) (by linarith) (by linarith) (by linarith)
      linarith

/-- C62: with a track that rises more steeply than `delY / delX` nothing at all is marked, not even the points of the
track itself. -/
theorem C62_rising_refuted (a : Args) (ha : Good a) (hx : a.x1 ≠ a.x2)
    (hm : a.delY < (a.y1 - a.y2) / (a.x1 - a.x2) * a.delX) (pts : List (ℝ × ℝ)) :
    satTrack a pts = .ok (List.replicate pts.length false) := by
  rw [satTrack_eq ha, Except.ok.injEq, List.eq_replicate_iff]
  refine ⟨by simp, ?_⟩
  simp only [List.mem_map]
  rintro b ⟨q, -, rfl⟩
  rw [Bool.eq_false_iff, ne_eq, keep_iff, inBand_iff hx]
  rintro ⟨h, -⟩
  have := abs_nonneg ((spot a.hemi q.1 q.2).2 - a.y1 -
    (a.y1 - a.y2) / (a.x1 - a.x2) * ((spot a.hemi q.1 q.2).1 - a.x1))
  linarith

/-- C62: with a track straight along the noon-midnight axis (crossings with equal x) nothing at all is marked. -/
theorem C62_vertical_refuted (a : Args) (ha : Good a) (hx : a.x1 = a.x2) (pts : List (ℝ × ℝ)) :
    satTrack a pts = .ok (List.replicate pts.length false) := by
  rw [satTrack_eq ha, Except.ok.injEq, List.eq_replicate_iff]
  refine ⟨by simp, ?_⟩
  simp only [List.mem_map]
  rintro b ⟨q, -, rfl⟩
  rw [Bool.eq_false_iff, ne_eq, keep_iff, vertical hx]
  simp

theorem sqrt_of {v r : ℝ} (hr : 0 ≤ r) (h : v = r ^ 2) : √v = r := by rw [h, Real.sqrt_sq hr]

theorem spot_dawn (h lat : ℝ) : spot h lat 6 = (90 - h * lat, 0) := by
  rw [spot]
  norm_num

/-- C62: a point between the crossings on the track is left out when the crossing nearest to it is much closer to the
pole than the other one: crossings at 85 degrees on the dusk side and 60 degrees on the dawn side, the point at 78
degrees on the dawn side, default tolerances. -/
theorem C62_between_refuted :
    Good ⟨-5, 0, 30, 0, 1, 1, 1, 5⟩ ∧
      spot 1 78 6 = (-5 + 17 / 35 * (30 - -5), 0) ∧
      satTrack ⟨-5, 0, 30, 0, 1, 1, 1, 5⟩ [(78, 6)] = .ok [false] := by
  have hg : Good ⟨-5, 0, 30, 0, 1, 1, 1, 5⟩ := by refine ⟨?_, ?_, ?_, ?_⟩ <;> norm_num
  refine ⟨hg, by rw [spot_dawn]; norm_num, ?_⟩
  rw [satTrack_eq hg]
  simp only [List.map_cons, List.map_nil, Except.ok.injEq, List.cons.injEq, and_true]
  rw [Bool.eq_false_iff, ne_eq, keep_iff, spot_dawn]
  rintro ⟨-, h, -⟩
  have h := h (by norm_num [gap])
  simp only [sqrt_of (show (0 : ℝ) ≤ 5 by norm_num) (show (-5 : ℝ) ^ 2 + 0 ^ 2 = 5 ^ 2 by norm_num)] at h
  rw [abs_of_pos (by norm_num)] at h
  norm_num at h

/-- C88: among the points of the hemisphere asked for, the marked ones lie at most `past_bound` degrees equatorward of
the nearest crossing.  What is missing: points of the other hemisphere, see `C88_hemisphere_refuted`. -/
theorem C88_hemisphere_partial (a : Args) (pts : List (ℝ × ℝ)) (mask : List Bool) (h : satTrack a pts = .ok mask)
    (i : ℕ) (lat mlt : ℝ) (hi : pts[i]? = some (lat, mlt)) (hm : mask[i]? = some true) (hh : 0 ≤ a.hemi * lat) :
    Poleward a (a.hemi * lat) (spot a.hemi lat mlt) := by
  have hs := (C62_sound a pts mask h i lat mlt hi hm).2.2
  have ha : Good a := by
    by_contra hn
    rw [(C62_errors a pts).1 hn] at h
    simp at h
  have e : a.hemi * lat = |lat| := by
    rcases ha.2.2.2 with e | e <;> rw [e] at hh ⊢
    · rw [one_mul] at hh ⊢; exact (abs_of_nonneg hh).symm
    · rw [neg_one_mul] at hh ⊢; exact (abs_of_nonpos (by linarith)).symm
  rw [e]
  exact hs

/-- C88: a point at 80 degrees south is marked on a track of the northern hemisphere. -/
theorem C88_hemisphere_refuted : satTrack ⟨10, 0, -10, 0, 1, 1, 1, 5⟩ [(-80, 6)] = .ok [true] := by
  have hg : Good ⟨10, 0, -10, 0, 1, 1, 1, 5⟩ := by refine ⟨?_, ?_, ?_, ?_⟩ <;> norm_num
  rw [satTrack_eq hg]
  simp only [List.map_cons, List.map_nil, Except.ok.injEq, List.cons.injEq, and_true]
  rw [keep_iff, spot_dawn, inBand_iff (by norm_num)]
  refine ⟨by norm_num, fun _ => ?_, fun h => ?_⟩
  · simp only [sqrt_of (show (0 : ℝ) ≤ 10 by norm_num) (show (10 : ℝ) ^ 2 + 0 ^ 2 = 10 ^ 2 by norm_num)]
    rw [abs_of_neg (by norm_num)]
    norm_num
  · norm_num [gap] at h

/-- The hypotheses of `C62_exact_partial` and `C62_between_partial` hold for a dawn-dusk pass with crossings at 75 and
72 degrees that falls slightly towards dusk, and a point of the segment between them is marked. -/
example : Good ⟨15, -1, -18, 2, -1, 1, 1, 5⟩ ∧ (15 : ℝ) ≠ -18 ∧ (-1 - 2 : ℝ) / (15 - -18) ≤ 0 ∧
    (-1 - 2 : ℝ) / (15 - -18) * 1 ≤ 1 := by
  refine ⟨⟨?_, ?_, ?_, ?_⟩, ?_, ?_, ?_⟩ <;> norm_num

/-- A rising track with the default tolerances: slope 2. -/
example : (1 : ℝ) < (10 - -10) / (5 - -5) * 1 := by norm_num

/-- The mask of a level track through the pole: the point at 80 degrees is marked, the one at 70 degrees is past the
boundary at 78 degrees by more than five degrees. -/
example : satTrack ⟨12, 0, -12, 0, 1, 1, 1, 5⟩ [(80, 6), (70, 6)] = .ok [true, false] := by
  have hg : Good ⟨12, 0, -12, 0, 1, 1, 1, 5⟩ := by refine ⟨?_, ?_, ?_, ?_⟩ <;> norm_num
  have e : √((12 : ℝ) ^ 2 + 0 ^ 2) = 12 := sqrt_of (by norm_num) (by norm_num)
  rw [satTrack_eq hg]
  simp only [List.map_cons, List.map_nil, Except.ok.injEq, List.cons.injEq, and_true]
  constructor
  · rw [keep_iff, spot_dawn, inBand_iff (by norm_num)]
    refine ⟨by norm_num, fun _ => ?_, fun h => ?_⟩
    · simp only [e]
      rw [abs_of_pos (by norm_num)]
      norm_num
    · norm_num [gap] at h
  · rw [Bool.eq_false_iff, ne_eq, keep_iff, spot_dawn]
    rintro ⟨-, h, -⟩
    have h := h (by norm_num [gap])
    simp only [e] at h
    rw [abs_of_pos (by norm_num)] at h
    norm_num at h

end Ocb.Track
