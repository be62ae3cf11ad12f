import Verif.Model.Dmsp
import Verif.Props.Coord
import Verif.Props.Load
import Verif.Props.Files

/-!
# Properties C55, C56 and C80-C84: DMSP boundary files

Vocabulary: `posX`, `posY` are the Cartesian coordinates of a magnetic location with x towards dawn and y towards noon,
in degrees from the pole of its hemisphere.  `onCircle` says that a point lies on a circle.
-/

set_option autoImplicit false

namespace Ocb.Dmsp

open Real Ocb.Coord Ocb.Files

/-- Degrees towards dawn of a location `c` degrees from the pole at local time `mlt`. -/
noncomputable def posX (c mlt : ℝ) : ℝ := c * Real.sin (hourAngle mlt)

/-- Degrees towards noon. -/
noncomputable def posY (c mlt : ℝ) : ℝ := -(c * Real.cos (hourAngle mlt))

/-- The point `(px, py)` lies on the circle of radius `r` about `(x, y)`. -/
def onCircle (x y r px py : ℝ) : Prop := 0 ≤ r ∧ (px - x) ^ 2 + (py - y) ^ 2 = r ^ 2

theorem toXY_ok (lat mlt : ℝ) : toXY lat mlt = .ok (posX (90 - |lat|) mlt, posY (90 - |lat|) mlt) := by
  unfold toXY
  rw [Time.hr2rad_ok]
  simp only [bind, Except.bind, pure, Except.pure, cos_fix, sin_fix]
  have h : (mlt - 6) * π / 12 = hourAngle mlt - π / 2 := by unfold hourAngle; ring
  rw [h, Real.cos_sub_pi_div_two, Real.sin_sub_pi_div_two]
  unfold posX posY
  rw [mul_neg]

/-- What the line of a pass and a boundary should say: spacecraft and quality of the pass, the time halfway between the
crossings, the positions of the two crossings, and the smallest circle through both. -/
def Describes (mag : ℝ → ℝ → ℝ → ℝ × ℝ) (f : Csv) (p : Pass) (b : Bd) (l : Line) : Prop :=
  l.sc = f.sc ∧ l.fom = p.fom ∧ l.time - (f.date + (p.ut b).1) = f.date + (p.ut b).2 - l.time ∧
    (∀ lat mlt, mag (p.lat b).1 (p.lon b).1 l.time = (lat, mlt) →
      l.x1 = posX (90 - |lat|) mlt ∧ l.y1 = posY (90 - |lat|) mlt) ∧
    (∀ lat mlt, mag (p.lat b).2 (p.lon b).2 l.time = (lat, mlt) →
      l.x2 = posX (90 - |lat|) mlt ∧ l.y2 = posY (90 - |lat|) mlt) ∧
    onCircle l.x l.y l.r l.x1 l.y1 ∧ onCircle l.x l.y l.r l.x2 l.y2 ∧
    ∀ x y r, onCircle x y r l.x1 l.y1 → onCircle x y r l.x2 l.y2 → l.r ≤ r

/-- C55: every pass gives, for each boundary, a line with the positions of its two crossings and a circle that passes
through both; it is the smallest circle that does, and its time is halfway between the crossings. -/
theorem C55_circle (mag : ℝ → ℝ → ℝ → ℝ × ℝ) (f : Csv) (p : Pass) (b : Bd) :
    ∃ l, passLine mag f p b = .ok l ∧ Describes mag f p b l := by
  unfold Describes
  unfold passLine
  simp only [toXY_ok, bind, Except.bind, pure, Except.pure]
  refine ⟨_, rfl, rfl, rfl, by ring, ?_, ?_, ⟨by positivity, ?_⟩, ⟨by positivity, ?_⟩, ?_⟩
  · intro lat mlt h; simp only [h, and_self]
  · intro lat mlt h; simp only [h, and_self]
  · rw [div_pow, Real.sq_sqrt (by positivity)]; ring
  · rw [div_pow, Real.sq_sqrt (by positivity)]; ring
  · rintro x y r ⟨hr, h1⟩ ⟨-, h2⟩
    simp only at h1 h2 ⊢
    generalize posX (90 - |(mag (p.lat b).1 (p.lon b).1 (f.date + 1 / 2 * ((p.ut b).2 + (p.ut b).1))).1|)
      (mag (p.lat b).1 (p.lon b).1 (f.date + 1 / 2 * ((p.ut b).2 + (p.ut b).1))).2 = a1 at *
    generalize posY (90 - |(mag (p.lat b).1 (p.lon b).1 (f.date + 1 / 2 * ((p.ut b).2 + (p.ut b).1))).1|)
      (mag (p.lat b).1 (p.lon b).1 (f.date + 1 / 2 * ((p.ut b).2 + (p.ut b).1))).2 = b1 at *
    generalize posX (90 - |(mag (p.lat b).2 (p.lon b).2 (f.date + 1 / 2 * ((p.ut b).2 + (p.ut b).1))).1|)
      (mag (p.lat b).2 (p.lon b).2 (f.date + 1 / 2 * ((p.ut b).2 + (p.ut b).1))).2 = a2 at *
    generalize posY (90 - |(mag (p.lat b).2 (p.lon b).2 (f.date + 1 / 2 * ((p.ut b).2 + (p.ut b).1))).1|)
      (mag (p.lat b).2 (p.lon b).2 (f.date + 1 / 2 * ((p.ut b).2 + (p.ut b).1))).2 = b2 at *
    have h3 : √((a1 - a2) ^ 2 + (b1 - b2) ^ 2) ≤ 2 * r := by
      apply Real.sqrt_le_iff.2 ⟨by positivity, ?_⟩
      nlinarith [sq_nonneg (a1 - x + (a2 - x)), sq_nonneg (b1 - y + (b2 - y))]
    linarith

/-- The boundary record that `OCBoundary.load` makes of a line with radius `r` and centre `(x, y)` (`_boundary.py`
412-421), with the correction of the instrument, `circular` without `r_add`. -/
def LoadedAs (B : Rec) (r x y : ℝ) : Prop := B.r = r ∧ (B.rCent, B.phiCent) = polarCentre x y ∧ ∀ m, B.rf m = 0

theorem dist_loaded {B : Rec} {r x y : ℝ} (h : LoadedAs B r x y) (c mlt : ℝ) :
    polarDist2 c (hourAngle mlt) B.rCent (B.phiCent * π / 180) = (posX c mlt - x) ^ 2 + (posY c mlt - y) ^ 2 := by
  obtain ⟨rc, phi, e, h0, h1, -, -, hx, hy⟩ := C32_polar_centre x y
  obtain ⟨-, h2, -⟩ := h
  rw [e, Prod.mk.injEq] at h2
  rw [h2.1, h2.2]
  unfold polarDist2 posX posY
  rw [Real.cos_sub, hx, hy]
  have e1 := Real.sin_sq_add_cos_sq (hourAngle mlt)
  have e2 := Real.sin_sq_add_cos_sq (phi * π / 180)
  linear_combination -c ^ 2 * e1 - rc ^ 2 * e2

theorem colat_inHem {hem lat : ℝ} (h : InHem hem lat) : colat hem lat = 90 - |lat| := by
  unfold colat InHem at *
  rw [← h, sign_mul_self]

/-- C55: loading such a circle gives a record for which every location on the circle, in particular both crossings of
the pass, goes to the reference latitude, whatever the reference latitude and the hemisphere. -/
theorem C55_normalise {B : Rec} (hB : B.Valid) {r x y : ℝ} (hl : LoadedAs B r x y) (hr : 0 < r) {lat mlt : ℝ}
    (hh : InHem B.hem lat) (hc : onCircle x y r (posX (90 - |lat|) mlt) (posY (90 - |lat|) mlt)) :
    ∃ M, normalPt B lat mlt = .ok (B.blat, M, 0) := by
  obtain ⟨L, M, h1, h2, -⟩ := C24_boundary_circle B hB lat mlt (by rw [hl.1, hl.2.2]; linarith)
  refine ⟨M, ?_⟩
  rw [h1, h2.1, hl.2.2]
  unfold distCentre
  rw [colat_inHem hh, dist_loaded hl, hc.2, hl.1, hl.2.2, add_zero, Real.sqrt_sq hr.le]

/-- C55: the rounding of radius and centre to three decimals, or any other change by at most `e`, moves a location on the
circle by less than 2.5 `e` / (rounded radius) of the distance between reference latitude and pole. -/
theorem C55_rounded {B : Rec} (hB : B.Valid) {r x y r' x' y' e : ℝ} (hl : LoadedAs B r' x' y') (hr : 0 < r')
    (er : |r' - r| ≤ e) (ex : |x' - x| ≤ e) (ey : |y' - y| ≤ e) {lat mlt : ℝ} (hh : InHem B.hem lat)
    (hc : onCircle x y r (posX (90 - |lat|) mlt) (posY (90 - |lat|) mlt)) :
    ∃ L M, normalPt B lat mlt = .ok (L, M, 0) ∧ |L - B.blat| ≤ (90 - |B.blat|) * (5 / 2 * e / r') := by
  obtain ⟨L, M, h1, h2⟩ := C24_colatitude B hB lat mlt (by rw [hl.1, hl.2.2]; linarith)
  rw [hl.2.2] at h1 h2
  refine ⟨L, M, h1, ?_⟩
  have he : 0 ≤ e := (abs_nonneg _).trans er
  have hd : distCentre B lat mlt = √((posX (90 - |lat|) mlt - x') ^ 2 + (posY (90 - |lat|) mlt - y') ^ 2) := by
    unfold distCentre
    rw [colat_inHem hh, dist_loaded hl]
  obtain ⟨h0, hc⟩ := hc
  generalize posX (90 - |lat|) mlt = px at *
  generalize posY (90 - |lat|) mlt = py at *
  have hexy : (x' - x) ^ 2 + (y' - y) ^ 2 ≤ (3 / 2 * e) ^ 2 := by
    have a1 := sq_le_sq' (by linarith [neg_abs_le (x' - x)]) ((le_abs_self _).trans ex)
    have a2 := sq_le_sq' (by linarith [neg_abs_le (y' - y)]) ((le_abs_self _).trans ey)
    nlinarith [sq_nonneg e]
  set D := distCentre B lat mlt
  have hD0 : 0 ≤ D := Real.sqrt_nonneg _
  have hD2 : D ^ 2 = (px - x') ^ 2 + (py - y') ^ 2 := by rw [hd, Real.sq_sqrt (by positivity)]
  have key : ∀ u v a b s t : ℝ, 0 ≤ s → 0 ≤ t → u ^ 2 + v ^ 2 = s ^ 2 → a ^ 2 + b ^ 2 ≤ t ^ 2 →
      (u + a) ^ 2 + (v + b) ^ 2 ≤ (s + t) ^ 2 := by
    intro u v a b s t hs ht hu ha
    have hc : u * a + v * b ≤ s * t := by
      apply abs_le_of_sq_le_sq' _ (by positivity) |>.2
      have : (u * a + v * b) ^ 2 ≤ (u ^ 2 + v ^ 2) * (a ^ 2 + b ^ 2) := by nlinarith [sq_nonneg (u * b - v * a)]
      rw [hu] at this
      nlinarith [mul_le_mul_of_nonneg_left ha (sq_nonneg s)]
    nlinarith
  have u1 : D ≤ r + 3 / 2 * e := by
    apply abs_le_of_sq_le_sq' _ (by positivity) |>.2
    have := key (px - x) (py - y) (x - x') (y - y') r (3 / 2 * e) h0 (by positivity) hc (by nlinarith)
    rw [hD2]; linarith
  have u2 : r ≤ D + 3 / 2 * e := by
    apply abs_le_of_sq_le_sq' _ (by positivity) |>.2
    have := key (px - x') (py - y') (x' - x) (y' - y) D (3 / 2 * e) hD0 (by positivity) hD2.symm (by nlinarith)
    rw [← hc]; linarith
  have u3 := abs_le.1 er
  have hs : 0 < 90 - |B.blat| := by linarith [hB.pole]
  rw [hl.1, add_zero] at h2
  have hL : B.hem * (L - B.blat) = (90 - |B.blat|) * ((r' - D) / r') := by
    have := hB.hem_blat
    unfold colat at h2
    rw [mul_sub, this, show B.hem * L = 90 - D * (90 - |B.blat|) / r' by linarith]
    field_simp
    ring
  have ha : |L - B.blat| = |B.hem * (L - B.blat)| := by
    rw [abs_mul]; rcases hB.hem with h | h <;> rw [h] <;> simp
  rw [ha, hL, abs_mul, abs_of_pos hs, abs_div, abs_of_pos hr]
  apply mul_le_mul_of_nonneg_left _ hs.le
  apply div_le_div_of_nonneg_right _ hr.le
  rw [abs_le]
  constructor <;> linarith

/-! ### C80: the boundary latitude at the local time of a crossing -/

/-- C80 exactly: at the local time of a crossing `c1 > 0` degrees from the pole, `get_aacgm_boundary_lat` returns
the latitude of that crossing if and only if the other crossing is not further from the pole along the same direction:
`c2 * cos(difference of local times) ≤ c1`. -/
theorem C80_boundary_lat_partial {B : Rec} {r x y c1 c2 m1 m2 : ℝ} (hl : LoadedAs B r x y) (h1 : 0 < c1)
    (hx : x = (posX c1 m1 + posX c2 m2) / 2) (hy : y = (posY c1 m1 + posY c2 m2) / 2)
    (hc : onCircle x y r (posX c1 m1) (posY c1 m1)) (hem : B.hem = 1 ∨ B.hem = -1) :
    boundaryLat B m1 = .ok (some (B.hem * (90 - c1))) ↔ c2 * Real.cos (hourAngle m1 - hourAngle m2) ≤ c1 := by
  have hmem : ∀ ρ, ρ ∈ Crossings B m1 ↔ 0 ≤ ρ ∧ (ρ - c1) * (ρ - c2 * Real.cos (hourAngle m1 - hourAngle m2)) = 0 := by
    intro ρ
    unfold Crossings
    rw [Set.mem_ofPred_eq, dist_loaded hl, hl.1, hl.2.2, add_zero, ← hc.2, hx, hy, Real.cos_sub]
    unfold posX posY
    have e1 := Real.sin_sq_add_cos_sq (hourAngle m1)
    refine and_congr_right fun _ => ⟨fun h => ?_, fun h => ?_⟩
    · linear_combination h - (ρ ^ 2 - ρ * c1) * e1
    · linear_combination h + (ρ ^ 2 - ρ * c1) * e1
  have hne : B.hem ≠ 0 := by rcases hem with h | h <;> rw [h] <;> norm_num
  rcases C29_greatest_crossing B m1 with ⟨-, he⟩ | ⟨ρ, ⟨g1, g2⟩, he⟩
  · have := (hmem c1).2 ⟨h1.le, by simp⟩
    rw [he] at this
    exact this.elim
  · rw [he]
    have hc1 := g2 ((hmem c1).2 ⟨h1.le, by simp⟩)
    have hρ := ((hmem ρ).1 g1).2
    constructor
    · intro h
      have : ρ = c1 := by
        have h' : B.hem * (90 - ρ) = B.hem * (90 - c1) := by simpa using h
        have := mul_left_cancel₀ hne h'
        linarith
      by_contra hlt
      push Not at hlt
      have := g2 ((hmem (c2 * Real.cos (hourAngle m1 - hourAngle m2))).2 ⟨by linarith, by simp⟩)
      linarith
    · intro h
      have : ρ = c1 := by
        rcases mul_eq_zero.1 hρ with h' | h' <;> linarith
      rw [this]

/-- C80 is false: for two crossings at the same local time the poleward one is never returned. -/
theorem C80_same_side_refuted {B : Rec} {r x y c1 c2 m : ℝ} (hl : LoadedAs B r x y) (h1 : 0 < c1) (h2 : c1 < c2)
    (hx : x = (posX c1 m + posX c2 m) / 2) (hy : y = (posY c1 m + posY c2 m) / 2)
    (hc : onCircle x y r (posX c1 m) (posY c1 m)) (hem : B.hem = 1 ∨ B.hem = -1) :
    boundaryLat B m ≠ .ok (some (B.hem * (90 - c1))) := by
  rw [ne_eq, C80_boundary_lat_partial hl h1 hx hy hc hem, sub_self, Real.cos_zero]
  linarith

/-- C80 for the usual passes: crossings at least six hours of local time apart are both returned. -/
theorem C80_opposite_partial {B : Rec} {r x y c1 c2 m1 m2 : ℝ} (hl : LoadedAs B r x y) (h1 : 0 < c1) (h2 : 0 < c2)
    (hx : x = (posX c1 m1 + posX c2 m2) / 2) (hy : y = (posY c1 m1 + posY c2 m2) / 2)
    (hc : onCircle x y r (posX c1 m1) (posY c1 m1)) (hc2 : onCircle x y r (posX c2 m2) (posY c2 m2))
    (hem : B.hem = 1 ∨ B.hem = -1) (k : ℤ) (hlo : 6 ≤ m1 - m2 - k * 24) (hhi : m1 - m2 - k * 24 ≤ 18) :
    boundaryLat B m1 = .ok (some (B.hem * (90 - c1))) ∧ boundaryLat B m2 = .ok (some (B.hem * (90 - c2))) := by
  have hp := Real.pi_pos
  have hcos : Real.cos (hourAngle m1 - hourAngle m2) ≤ 0 := by
    rw [← Real.cos_sub_int_mul_two_pi _ k]
    apply Real.cos_nonpos_of_pi_div_two_le_of_le
    · have : hourAngle m1 - hourAngle m2 - k * (2 * π) = (m1 - m2 - k * 24) * (π / 12) := by unfold hourAngle; ring
      rw [this]; nlinarith
    · have : hourAngle m1 - hourAngle m2 - k * (2 * π) = (m1 - m2 - k * 24) * (π / 12) := by unfold hourAngle; ring
      rw [this]; nlinarith
  refine ⟨(C80_boundary_lat_partial hl h1 hx hy hc hem).2 ?_,
    (C80_boundary_lat_partial hl h2 (by rw [hx]; ring) (by rw [hy]; ring) hc2 hem).2 ?_⟩
  · nlinarith
  · rw [← Real.cos_neg, neg_sub]; nlinarith

/-- The hypotheses of the theorems on circles meet: crossings 10 and 20 degrees from the pole, at 6 and 18 MLT or both at
6 MLT. -/
example : ∃ (B : Rec) (x y r : ℝ), B.Valid ∧ LoadedAs B r x y ∧ 0 < r ∧ InHem B.hem 80 ∧
    onCircle x y r (posX 10 6) (posY 10 6) ∧ onCircle x y r (posX 20 18) (posY 20 18) := by
  refine ⟨⟨(polarCentre (-5) 0).2, (polarCentre (-5) 0).1, 15, fun _ => 0, 1, 74⟩, -5, 0, 15,
    ⟨.inl rfl, by norm_num, by rw [abs_lt]; constructor <;> norm_num⟩, ⟨rfl, rfl, fun _ => rfl⟩, by norm_num,
    (sign_hem 80 (by norm_num)).1, ?_, ?_⟩
  · have h : hourAngle 6 = π / 2 := by unfold hourAngle; ring
    unfold onCircle posX posY
    rw [h, Real.sin_pi_div_two, Real.cos_pi_div_two]
    norm_num
  · have h : hourAngle 18 = π / 2 + π := by unfold hourAngle; ring
    unfold onCircle posX posY
    rw [h, Real.sin_add_pi, Real.cos_add_pi, Real.sin_pi_div_two, Real.cos_pi_div_two]
    norm_num

example : ∃ (B : Rec) (x y r : ℝ), LoadedAs B r x y ∧ x = (posX 10 6 + posX 20 6) / 2 ∧
    y = (posY 10 6 + posY 20 6) / 2 ∧ onCircle x y r (posX 10 6) (posY 10 6) := by
  have h : hourAngle 6 = π / 2 := by unfold hourAngle; ring
  refine ⟨⟨(polarCentre 15 0).2, (polarCentre 15 0).1, 5, fun _ => 0, 1, 74⟩, 15, 0, 5, ⟨rfl, rfl, fun _ => rfl⟩, ?_⟩
  unfold onCircle posX posY
  rw [h, Real.sin_pi_div_two, Real.cos_pi_div_two]
  norm_num

end Ocb.Dmsp
