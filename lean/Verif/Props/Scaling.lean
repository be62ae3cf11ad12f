import Mathlib.Analysis.Real.Pi.Bounds
import Mathlib.Analysis.SpecialFunctions.Trigonometric.Bounds
import Verif.Model.Scaling
import Verif.Lemmas.Time

/-!
# C47-C51: scale functions, haversine, coordinate names and index assignment of `VectorData`
-/

set_option autoImplicit false

namespace Ocb.Scale

open Ocb.Time Ocb.Coord Ocb.Vec

/-! ## C47 -/

/-- C47 for `normal_evar`: potential is conserved, and the map is linear, the identity for equal radii, composable
along a chain of radii and inverted by exchanging the radii. -/
theorem C47_evar (v w c u s t : ℝ) (hu : u ≠ 0) (hs : s ≠ 0) :
    normalEvar v u s * s = v * u ∧ normalEvar (v + c * w) u s = normalEvar v u s + c * normalEvar w u s ∧
    normalEvar v u u = v ∧ normalEvar (normalEvar v u s) s t = normalEvar v u t ∧
    normalEvar (normalEvar v u s) s u = v := by
  unfold normalEvar
  refine ⟨?_, ?_, ?_, ?_, ?_⟩ <;> field_simp

/-- C47 for `normal_curl_evar`. -/
theorem C47_curl (v w c u s t : ℝ) (hu : u ≠ 0) (hs : s ≠ 0) :
    normalCurlEvar v u s * s ^ 2 = v * u ^ 2 ∧
    normalCurlEvar (v + c * w) u s = normalCurlEvar v u s + c * normalCurlEvar w u s ∧
    normalCurlEvar v u u = v ∧ normalCurlEvar (normalCurlEvar v u s) s t = normalCurlEvar v u t ∧
    normalCurlEvar (normalCurlEvar v u s) s u = v := by
  unfold normalCurlEvar
  refine ⟨?_, ?_, ?_, ?_, ?_⟩ <;> field_simp

/-- A polar cap of 16 degrees scaled to 15: both invariants hold at numbers where the results differ. -/
example : normalEvar 30 16 15 = 32 ∧ normalCurlEvar 225 16 15 = 256 := by
  unfold normalEvar normalCurlEvar; norm_num

/-! ## C48 -/

/-- C48: `hav` is even, periodic and takes values in `[0, 1]`. -/
theorem C48_hav (a : ℝ) : hav (some (-a)) = hav (some a) ∧ hav (some (a + 2 * Real.pi)) = hav (some a) ∧
    ∃ x, hav (some a) = some x ∧ 0 ≤ x ∧ x ≤ 1 ∧ x = (1 - Real.cos a) / 2 := by
  unfold hav
  simp only [Option.map_some, Option.some.injEq]
  refine ⟨?_, ?_, _, rfl, sq_nonneg _, ?_, ?_⟩
  · rw [show -a * (1 / 2) = -(a * (1 / 2)) by ring, Real.sin_neg]; ring
  · rw [show (a + 2 * Real.pi) * (1 / 2) = a * (1 / 2) + Real.pi by ring, Real.sin_add_pi]; ring
  · exact Real.sin_sq_le_one _
  · rw [Real.sin_sq_eq_half_sub]
    rw [show 2 * (a * (1 / 2)) = a by ring]; ring

/-- C48: `archav` undoes `hav` on `[-π, π]` down to its tolerance, below which it answers 0. -/
theorem C48_archav_hav (a : ℝ) (ha : |a| ≤ Real.pi) :
    archav (hav (some a)) = some (if 1 / 10 ^ 16 ≤ (1 - Real.cos a) / 2 then |a| else 0) := by
  obtain ⟨-, -, x, hx, h0, h1, hc⟩ := C48_hav a
  rw [hx, ← hc]
  unfold archav
  simp only
  by_cases h : 1 / 10 ^ 16 ≤ x
  · rw [if_pos h, if_neg (by rw [abs_of_nonneg h0]; linarith), if_pos h]
    have hs : √x = |Real.sin (a * (1 / 2))| := by
      have : x = Real.sin (a * (1 / 2)) ^ 2 := by
        unfold hav at hx; simpa using hx.symm
      rw [this, Real.sqrt_sq_eq_abs]
    have hs2 : |Real.sin (a * (1 / 2))| = Real.sin (|a| / 2) := by
      rcases abs_cases a with ⟨e, h⟩ | ⟨e, h⟩
      · rw [e, show a * (1 / 2) = a / 2 by ring]
        exact abs_of_nonneg (Real.sin_nonneg_of_nonneg_of_le_pi (by linarith) (by rw [e] at ha; linarith [Real.pi_pos]))
      · rw [e, show a * (1 / 2) = -(-a / 2) by ring, Real.sin_neg, abs_neg]
        exact abs_of_nonneg (Real.sin_nonneg_of_nonneg_of_le_pi (by linarith) (by rw [e] at ha; linarith [Real.pi_pos]))
    have h2 := Real.neg_one_le_sin (|a| / 2)
    have h3 := Real.sin_le_one (|a| / 2)
    have hp := abs_nonneg a
    simp only [npSqrt, if_neg (not_lt.2 h0), Option.bind_some, npArcsin, hs, hs2]
    rw [if_neg (by push Not; exact ⟨h2, h3⟩), Option.map_some,
      Real.arcsin_sin (by linarith [Real.pi_pos]) (by linarith)]
    congr 1; ring
  · rw [if_neg h, if_pos (by rw [abs_of_nonneg h0]; push Not at h; exact h), if_neg h]

/-- C48: `hav` undoes `archav` from the tolerance up to 1. -/
theorem C48_hav_archav (x : ℝ) (h : 1 / 10 ^ 16 ≤ x) (h1 : x ≤ 1) : hav (archav (some x)) = some x := by
  have h0 : 0 ≤ x := le_trans (by positivity) h
  have hs1 : √x ≤ 1 := Real.sqrt_le_one.2 h1
  unfold archav
  simp only
  rw [if_neg (by rw [abs_of_nonneg h0]; linarith), if_pos h]
  simp only [npSqrt, if_neg (not_lt.2 h0), Option.bind_some, npArcsin]
  rw [if_neg (by push Not; exact ⟨by linarith [Real.sqrt_nonneg x], hs1⟩)]
  simp only [Option.map_some, hav]
  rw [show 2 * Real.arcsin √x * (1 / 2) = Real.arcsin √x by ring,
    Real.sin_arcsin (by linarith [Real.sqrt_nonneg x]) hs1, Real.sq_sqrt h0]

/-- C48: NaN outside the domain. -/
theorem C48_outside (x : ℝ) (h : x ≤ -(1 / 10 ^ 16) ∨ 1 < x) : archav (some x) = none := by
  unfold archav
  simp only
  rcases h with h | h
  · have hx : x < 0 := lt_of_le_of_lt h (by norm_num)
    rw [if_neg (by rw [abs_of_neg hx]; linarith), if_neg (by linarith)]
  · have h2 : (1 : ℝ) < √x := by rw [Real.lt_sqrt (by norm_num)]; linarith
    rw [if_neg (by rw [abs_of_pos (by linarith)]; push Not; exact le_trans (by norm_num) h.le),
      if_pos (le_trans (by norm_num) h.le)]
    simp [npSqrt, if_neg (not_lt.2 (by linarith : (0 : ℝ) ≤ x)), npArcsin, h2]

/-- C48: below the tolerance the answer 0 is within 2.1e-8 of the exact angle. -/
theorem C48_small (x : ℝ) (h0 : 0 ≤ x) (h : x < 1 / 10 ^ 16) :
    archav (some x) = some 0 ∧ 0 ≤ 2 * Real.arcsin √x ∧ 2 * Real.arcsin √x ≤ 21 / 10 ^ 9 := by
  refine ⟨?_, ?_, ?_⟩
  · unfold archav
    simp only
    rw [if_pos (by rw [abs_of_nonneg h0]; exact h)]
  · have := Real.arcsin_nonneg.2 (Real.sqrt_nonneg x); linarith
  · have h1 : √x ≤ 1 / 10 ^ 8 := by
      rw [Real.sqrt_le_left (by norm_num)]; norm_num at h ⊢; linarith
    have h2 : (1 : ℝ) / 10 ^ 8 ≤ Real.sin (105 / 10 ^ 10) := by
      have := Real.sin_gt_sub_cube (x := 105 / 10 ^ 10) (by norm_num)
      refine le_trans ?_ this.le
      norm_num
    have h3 : Real.arcsin √x ≤ 105 / 10 ^ 10 := by
      rw [Real.arcsin_le_iff_le_sin]
      · exact h1.trans h2
      · exact ⟨by linarith [Real.sqrt_nonneg x], h1.trans (by norm_num)⟩
      · exact ⟨by linarith [Real.pi_pos], by linarith [Real.pi_gt_three]⟩
    linarith

/-- A right angle: haversine one half, and back. -/
example : hav (some (Real.pi / 2)) = some (1 / 2) ∧ archav (hav (some (-(Real.pi / 2)))) = some (Real.pi / 2) := by
  have hp := Real.pi_pos
  constructor
  · obtain ⟨-, -, x, hx, -, -, hc⟩ := C48_hav (Real.pi / 2)
    rw [hx, hc, Real.cos_pi_div_two]; norm_num
  · have ha : |-(Real.pi / 2)| = Real.pi / 2 := by rw [abs_neg, abs_of_pos (by linarith)]
    rw [C48_archav_hav _ (by rw [ha]; linarith), ha, Real.cos_neg, Real.cos_pi_div_two, if_pos (by norm_num)]

/-! ## C50 -/

/-- The combinations that the documentation allows: known names, and no mixture of geodetic and geocentric. -/
def Compatible (loc vect : String) : Prop :=
  let known (c : String) : Prop := c = "magnetic" ∨ c = "geocentric" ∨ c = "geodetic"
  known loc ∧ known vect ∧ (loc = vect ∨ loc = "magnetic" ∨ vect = "magnetic")

/-- C50: the test accepts exactly the compatible pairs, and refuses the others with a `ValueError`. -/
theorem C50_test (loc vect : String) :
    (testCoords loc vect = .ok () ↔ Compatible loc vect) ∧
    (¬ Compatible loc vect → testCoords loc vect = .error .valueError) := by
  unfold testCoords Compatible goodCoords
  simp only [List.mem_cons, List.not_mem_nil, or_false]
  by_cases h1 : loc = "magnetic" ∨ loc = "geocentric" ∨ loc = "geodetic"
  · by_cases h2 : vect = "magnetic" ∨ vect = "geocentric" ∨ vect = "geodetic"
    · by_cases h3 : loc = vect ∨ loc = "magnetic" ∨ vect = "magnetic"
      · rw [if_neg (not_not.2 h1), if_neg (not_not.2 h2), if_neg (by
          rintro ⟨a, b⟩
          rcases h3 with h | h | h
          · exact a h.symm
          · exact b (.inr h.symm)
          · exact b (.inl h.symm))]
        simp [h1, h2, h3]
      · rw [if_neg (not_not.2 h1), if_neg (not_not.2 h2), if_pos (by
          push Not at h3
          exact ⟨h3.1.symm, by rintro (h | h); exacts [h3.2.2 h.symm, h3.2.1 h.symm]⟩)]
        simp [h1, h2, h3]
    · rw [if_neg (not_not.2 h1), if_pos h2]; simp [h2]
  · rw [if_pos h1]; simp [h1]

/-- The same object under other coordinate names. -/
def relabel (l c : String) (v : VD) : VD := { v with locCoord := l, vectCoord := c }

theorem testVectorShape_relabel (l c : String) (v : VD) :
    testVectorShape (relabel l c v) = (relabel l c (testVectorShape v).1, (testVectorShape v).2) := by
  unfold testVectorShape relabel
  simp only
  split_ifs <;> rfl

theorem testBoundShape_relabel (l c : String) (v : VD) :
    testBoundShape (relabel l c v) = (relabel l c (testBoundShape v).1, (testBoundShape v).2) := by
  unfold testBoundShape relabel
  simp only
  split_ifs <;> rfl

theorem finish_relabel (l c : String) (a : Args) (v : VD) :
    finish a (relabel l c v) = (finish a v).map (relabel l c) := by
  unfold finish
  rw [testVectorShape_relabel]
  rcases testVectorShape v with ⟨w, e | u⟩
  · rfl
  · simp only
    rw [show assignBound a (relabel l c w) = relabel l c (assignBound a w) from rfl, testBoundShape_relabel]
    rcases testBoundShape (assignBound a w) with ⟨w', e | u'⟩ <;> rfl

theorem setVectMag_relabel (l c : String) (v : VD) (m : Arr F) :
    setVectMag (relabel l c v) m = (setVectMag v m).map (relabel l c) := by
  unfold setVectMag
  rw [show (relabel l c v).vectN = v.vectN from rfl, show (relabel l c v).vectE = v.vectE from rfl,
    show (relabel l c v).vectZ = v.vectZ from rfl]
  cases magArr v.vectN v.vectE v.vectZ with
  | error e => rfl
  | ok s =>
    simp only [bind, Except.bind, pure, Except.pure]
    split_ifs
    · rfl
    · cases m.zip s <;> rfl

/-- The object before the coordinate test, apart from the names. -/
noncomputable def before (a : Args) : Except PyErr VD := setVectMag (initial (fun _ => "") a) a.vectMag

theorem construct_eq (lower : String → String) (a : Args) :
    construct lower a = (before a).bind fun v =>
      (testCoords (lower a.locCoord) (lower a.vectCoord)).bind fun _ =>
        (finish a v).map (relabel (lower a.locCoord) (lower a.vectCoord)) := by
  unfold construct before
  rw [show initial lower a = relabel (lower a.locCoord) (lower a.vectCoord) (initial (fun _ => "") a) from rfl,
    setVectMag_relabel]
  generalize setVectMag _ _ = q
  cases q with
  | error e => rfl
  | ok v =>
    simp only [bind, Except.bind, Except.map]
    rw [show (relabel (lower a.locCoord) (lower a.vectCoord) v).locCoord = lower a.locCoord from rfl,
      show (relabel (lower a.locCoord) (lower a.vectCoord) v).vectCoord = lower a.vectCoord from rfl]
    rw [finish_relabel]
    rfl

/-- C50 for the constructor: of the arguments it accepts with magnetic coordinates, it accepts exactly those with
compatible names (after conversion to lower case), stores the names in lower case, and refuses the rest with a
`ValueError`. -/
theorem C50_construct (lower : String → String) (hl : lower "magnetic" = "magnetic") (a : Args) (v₀ : VD)
    (h : construct lower { a with locCoord := "magnetic", vectCoord := "magnetic" } = .ok v₀) :
    (Compatible (lower a.locCoord) (lower a.vectCoord) →
      construct lower a = .ok { v₀ with locCoord := lower a.locCoord, vectCoord := lower a.vectCoord }) ∧
    (¬ Compatible (lower a.locCoord) (lower a.vectCoord) → construct lower a = .error .valueError) := by
  rw [construct_eq] at h ⊢
  rw [show before { a with locCoord := "magnetic", vectCoord := "magnetic" } = before a from rfl,
    show finish { a with locCoord := "magnetic", vectCoord := "magnetic" } = finish a from rfl] at h
  simp only [hl, (C50_test "magnetic" "magnetic").1.2 (by simp [Compatible])] at h
  cases hb : before a with
  | error e => rw [hb] at h; exact absurd h (by simp [Except.bind])
  | ok v =>
    rw [hb] at h
    simp only [Except.bind] at h ⊢
    constructor
    · intro hc
      rw [(C50_test _ _).1.2 hc]
      cases hf : finish a v with
      | error e => rw [hf] at h; exact absurd h (by simp [Except.map])
      | ok w =>
        rw [hf] at h
        cases h
        rfl
    · intro hc
      rw [(C50_test _ _).2 hc]

/-- C50 for every successful construction, whatever the arguments: the stored names are compatible. -/
theorem C50_constructed (lower : String → String) (a : Args) (v : VD) (h : construct lower a = .ok v) :
    Compatible v.locCoord v.vectCoord := by
  rw [construct_eq] at h
  cases hb : before a with
  | error e => rw [hb] at h; exact absurd h (by simp [Except.bind])
  | ok w =>
    rw [hb] at h
    simp only [Except.bind] at h
    cases ht : testCoords (lower a.locCoord) (lower a.vectCoord) with
    | error e => rw [ht] at h; exact absurd h (by simp)
    | ok u =>
      rw [ht] at h
      cases hf : finish a w with
      | error e => rw [hf] at h; exact absurd h (by simp [Except.map])
      | ok x =>
        rw [hf] at h
        cases h
        exact (C50_test _ _).1.1 ht

/-- The argument list of a single vector. -/
def oneArgs (dat ocb : ℤ) (lat lt n e z : ℝ) (loc vect : String) : Args :=
  { datInd := .one dat, ocbInd := .one ocb, lat := .one (some lat), lt := .one (some lt), height := .one (some 350)
    locCoord := loc, ocbLat := .one none, ocbMlt := .one none, rCorr := .one none, vectN := .one (some n)
    vectE := .one (some e), vectZ := .one (some z), vectMag := .one none, vectCoord := vect, scaleFunc := none }

/-- A single vector is accepted in magnetic coordinates. -/
theorem oneArgs_ok (lower : String → String) (hl : lower "magnetic" = "magnetic") (dat ocb : ℤ)
    (lat lt n e z : ℝ) : ∃ v, construct lower (oneArgs dat ocb lat lt n e z "magnetic" "magnetic") = .ok v ∧
      v.ocbInd = .one ocb ∧ v.datInd = .one dat ∧ v.lat = .one (some lat) ∧ v.lt = .one (some lt) ∧
      v.vectN = .one (some n) ∧ v.vectE = .one (some e) ∧ v.vectZ = .one (some z) := by
  rw [construct_eq]
  have hb : before (oneArgs dat ocb lat lt n e z "magnetic" "magnetic") = .ok _ := rfl
  rw [hb]
  simp only [Except.bind]
  rw [show (oneArgs dat ocb lat lt n e z "magnetic" "magnetic").locCoord = "magnetic" from rfl,
    show (oneArgs dat ocb lat lt n e z "magnetic" "magnetic").vectCoord = "magnetic" from rfl, hl,
    (C50_test "magnetic" "magnetic").1.2 (by simp [Compatible])]
  refine ⟨_, rfl, rfl, rfl, rfl, rfl, rfl, rfl, rfl⟩

/-- Both directions are met: a geodetic vector at a geodetic location is accepted, at a geocentric one refused. -/
example : (∃ v, construct id (oneArgs 0 3 75 22 50 86 5 "geodetic" "geodetic") = .ok v) ∧
    construct id (oneArgs 0 3 75 22 50 86 5 "geocentric" "geodetic") = .error .valueError := by
  obtain ⟨v, hv, -⟩ := oneArgs_ok id rfl 0 3 75 22 50 86 5
  exact ⟨⟨_, (C50_construct id rfl (oneArgs 0 3 75 22 50 86 5 "geodetic" "geodetic") v hv).1
      (by simp [Compatible, oneArgs])⟩,
    (C50_construct id rfl (oneArgs 0 3 75 22 50 86 5 "geocentric" "geodetic") v hv).2
      (by simp [Compatible, oneArgs])⟩

/-- What an update does to the two names. -/
theorem updateLoc_names (lower : String → String) (A : Aacgm) (v v' : VD) (ts : Arr Tod) (coord : String)
    (h : updateLoc lower A v ts coord = .ok v') :
    v'.vectCoord = v.vectCoord ∧ (lower coord ≠ v.locCoord ∧ v'.locCoord = coord ∨ lower coord = v.locCoord ∧ v' = v) := by
  unfold updateLoc at h
  split_ifs at h with hc
  · simp only [bind, Except.bind, pure, Except.pure] at h
    split at h
    · cases h
    · rename_i w hw
      have hw' : w.vectCoord = v.vectCoord := by
        unfold growLoc at hw
        split at hw
        · cases hw; rfl
        · cases hw; rfl
        · cases hw; rfl
        · split_ifs at hw; cases hw; rfl
      simp only [convAll, bind, Except.bind, pure, Except.pure] at h
      split at h
      · cases h
      split at h
      · cases h
      split at h
      · cases h
      split at h
      · cases h
      cases h
      exact ⟨hw', .inl ⟨hc, rfl⟩⟩
  · cases h; exact ⟨rfl, .inr ⟨not_not.1 hc, rfl⟩⟩

/-- C50 after an update of the location, as far as it holds: a target system that is compatible with the vector and
written in lower case leaves the pair compatible.  Missing: other spellings and unknown names (refuted below). -/
theorem C50_update_partial (lower : String → String) (A : Aacgm) (v v' : VD) (ts : Arr Tod) (coord : String)
    (hv : Compatible v.locCoord v.vectCoord) (hc : Compatible coord v.vectCoord)
    (h : updateLoc lower A v ts coord = .ok v') : Compatible v'.locCoord v'.vectCoord := by
  obtain ⟨h1, ⟨-, h2⟩ | ⟨-, h2⟩⟩ := updateLoc_names lower A v v' ts coord h
  · rw [h1, h2]; exact hc
  · rw [h2]; exact hv

/-- C50 is false after an update: the name is not checked and is stored as it is spelled, so a geodetic object can be
given any other name, which the constructor would have refused. -/
theorem C50_update_refuted (lower : String → String) (A : Aacgm) (t : Tod) (coord : String)
    (hc : lower coord ≠ "geodetic") (hn : coord ∉ ["magnetic", "geocentric", "geodetic"])
    (hg : lower "geodetic" = "geodetic") (hl : lower "magnetic" = "magnetic") :
    ∃ v v', construct lower (oneArgs 0 3 75 22 50 86 5 "geodetic" "geodetic") = .ok v ∧
      updateLoc lower A v (.one t) coord = .ok v' ∧ v'.locCoord = coord ∧ ¬ Compatible v'.locCoord v'.vectCoord := by
  obtain ⟨v, hv, -, hd, hla, hlt, -⟩ := oneArgs_ok lower hl 0 3 75 22 50 86 5
  have hv' := (C50_construct lower hl (oneArgs 0 3 75 22 50 86 5 "geodetic" "geodetic") v hv).1
    (by simp [Compatible, oneArgs, hg])
  have hh : v.height = .one (some 350) := by
    rw [construct_eq] at hv
    simp only [oneArgs, hl, (C50_test "magnetic" "magnetic").1.2 (by simp [Compatible])] at hv
    exact (congrArg VD.height (Except.ok.inj hv)).symm
  obtain ⟨v', h1⟩ : ∃ v', updateLoc lower A
      { v with locCoord := lower "geodetic", vectCoord := lower "geodetic" } (.one t) coord = .ok v' := by
    unfold updateLoc
    simp only [hg]
    rw [if_pos hc]
    simp only [growLoc, convAll, hla, hlt, hh, hd, Arr.shape, bind, Except.bind, pure, Except.pure, Arr.zip, Arr.mapE]
    obtain ⟨o, ho⟩ : ∃ o, convLoc A (decide (lower coord = "magnetic"))
        (if decide (lower coord = "magnetic") = true then decide (("geodetic" : String) = "geocentric")
          else decide (lower coord = "geocentric")) (some 75) (some 22) (some 350) t = .ok o := by
      unfold convLoc
      split_ifs
      · simp only [liftF, bind, Except.bind, pure, Except.pure]
        rw [slt2glon_ok]
        exact ⟨_, rfl⟩
      · simp only [bind, Except.bind, pure, Except.pure]
        generalize A.a2g _ _ _ _ _ = o
        rcases o with ⟨a, - | b⟩
        · exact ⟨_, rfl⟩
        · simp only [liftF, glon2slt_ok]
          exact ⟨_, rfl⟩
    rw [ho]
    exact ⟨_, rfl⟩
  refine ⟨_, v', hv', h1, ?_⟩
  obtain ⟨h2, h3⟩ := updateLoc_names _ _ _ _ _ _ h1
  have h4 : v'.locCoord = coord := by
    rcases h3 with h3 | h3
    · exact h3.2
    · exact absurd (h3.1.trans hg) hc
  refine ⟨h4, ?_⟩
  rw [h4]
  intro hcomp
  exact hn (by simpa [Compatible] using hcomp.1)

/-- An instance: the documented name with a capital letter, for any `lower` that is right on three names. -/
example (lower : String → String) (A : Aacgm) (t : Tod) (h1 : lower "Magnetic" = "magnetic")
    (h2 : lower "magnetic" = "magnetic") (h3 : lower "geodetic" = "geodetic") :
    ∃ v v', updateLoc lower A v (.one t) "Magnetic" = .ok v' ∧
      v.locCoord = "geodetic" ∧ v'.locCoord = "Magnetic" := by
  obtain ⟨v, v', h, h', h4, -⟩ := C50_update_refuted lower A t "Magnetic" (by rw [h1]; decide) (by decide) h3 h2
  refine ⟨v, v', h', ?_, h4⟩
  rw [construct_eq] at h
  simp only [oneArgs, h3, (C50_test "geodetic" "geodetic").1.2 (by simp [Compatible])] at h
  exact (congrArg VD.locCoord (Except.ok.inj h)).symm

/-! ## C51 -/

/-- No result of an earlier calculation can be read: rotated components, magnitude, pole angle and pole location are
NaN and the quadrants are 0, all in the shape `s`. -/
structure Cleared (v : VD) (s : Shape) : Prop where
  n : v.ocbN = .full s none
  e : v.ocbE = .full s none
  z : v.ocbZ = .full s none
  mag : v.ocbMag = .full s none
  pq : v.ocbQuad = .full s 0
  vq : v.vecQuad = .full s 0
  ang : v.poleAngle = .full s none
  lat : v.aacgmLat = .full s none
  mlt : v.aacgmMlt = .full s none

theorem clearData_cleared (v : VD) : Cleared (clearData v) v.vshape := ⟨rfl, rfl, rfl, rfl, rfl, rfl, rfl, rfl, rfl⟩

/-- The boundary coordinates are NaN throughout. -/
def CoordsNan (v : VD) : Prop := ∀ x ∈ [v.ocbLat, v.ocbMlt, v.rCorr], ∀ y ∈ x.entries, y = none

/-- What the bound test does to a state. -/
theorem testBoundShape_spec (v : VD) : ∃ s, (testBoundShape v).1 = { v with vshape := s } ∧
    (s = v.vshape ∨ v.datInd.shape = none ∧ s = v.ocbInd.shape) ∧
    ((testBoundShape v).2 = .ok () → v.ocbInd.shape ≠ none →
      v.ocbInd.shape = maxShape (distinct [v.ocbLat.shape, v.ocbMlt.shape, v.rCorr.shape]) ∧ s = v.ocbInd.shape) := by
  unfold testBoundShape
  simp only
  split_ifs with h1 h2 h3 h4
  · exact ⟨v.vshape, rfl, .inl rfl, by simp⟩
  · exact ⟨v.vshape, rfl, .inl rfl, fun _ h => absurd h2 h⟩
  · push Not at h1
    have := h1.1 h2
    exact ⟨_, rfl, .inr ⟨h3, this.2⟩, fun _ _ => ⟨this.2.symm, this.2⟩⟩
  · exact ⟨v.vshape, rfl, .inl rfl, by simp⟩
  · push Not at h1 h4
    have := h1.1 h2
    exact ⟨v.vshape, rfl, .inl rfl, fun _ _ => ⟨this.2.symm, h4 ▸ this.2⟩⟩

/-- C51 for `ocb_ind` as far as it holds: a successful assignment stores the index, leaves none of the rotated
results, and gives them the shape of the new index when that is an array.  Missing: the boundary coordinates
`ocb_lat`, `ocb_mlt`, `r_corr` (refuted below), the shape after assigning a single index (refuted below) and the
state after a refused assignment (refuted below). -/
theorem C51_ocb_ind_partial (v : VD) (i : Arr ℤ) (h : (setOcbInd v i).2 = .ok ()) :
    let v' := (setOcbInd v i).1
    v'.ocbInd = i ∧ v'.datInd = v.datInd ∧ Cleared v' v'.vshape ∧ (i.shape ≠ none → v'.vshape = i.shape) := by
  unfold setOcbInd at h ⊢
  simp only at h ⊢
  obtain ⟨s, h1, h2, h3⟩ := testBoundShape_spec { v with ocbInd := i }
  rcases hq : testBoundShape { v with ocbInd := i } with ⟨w, e | u⟩
  · rw [hq] at h h1 h3
    simp only at h h1 h3 ⊢
    subst h1
    cases e with
    | vector => simp at h
    | inputs =>
      simp only at h ⊢
      generalize hw : unsetBound _ = w at h ⊢
      have hwi : w.ocbInd = i ∧ w.datInd = v.datInd := by
        rw [← hw]; exact ⟨rfl, rfl⟩
      obtain ⟨s', h1', h2', h3'⟩ := testBoundShape_spec w
      rcases hq' : testBoundShape w with ⟨w', e | u⟩
      · rw [hq'] at h; simp at h
      · rw [hq'] at h1' h3'
        simp only at h1' h3' ⊢
        subst h1'
        refine ⟨hwi.1, hwi.2, clearData_cleared _, fun hi => ?_⟩
        exact ((h3' trivial (by rw [hwi.1]; exact hi)).2).trans (congrArg Arr.shape hwi.1)
  · rw [hq] at h1 h3
    simp only at h1 h3 ⊢
    subst h1
    exact ⟨rfl, rfl, clearData_cleared _, fun hi => (h3 trivial hi).2⟩

/-- The test for boundary coordinates of one shape and a single index. -/
theorem testBoundShape_one (v : VD) (k : ℤ) (s : Shape) (hi : v.ocbInd = .one k) (h1 : v.ocbLat.shape = s)
    (h2 : v.ocbMlt.shape = s) (h3 : v.rCorr.shape = s) : testBoundShape v = (v, .ok ()) := by
  unfold testBoundShape
  have hd : distinct [v.ocbLat.shape, v.ocbMlt.shape, v.rCorr.shape] = [s] := by
    rw [h1, h2, h3]; simp [distinct]
  simp only [hd]
  rw [if_neg (by simp [hi, Arr.shape]), if_pos (by simp [hi, Arr.shape])]

theorem spread_shape {α : Type*} (i : Arr ℤ) (a : α) : (spread i (.one a)).shape = i.shape := by
  cases i <;> simp [spread, Arr.full, Arr.shape]

theorem spread_entries {α : Type*} (i : Arr ℤ) (a b : α) (h : b ∈ (spread i (.one a)).entries) : b = a := by
  cases i with
  | one k => simpa [spread, Arr.entries] using h
  | many l =>
    simp only [spread, Arr.full, Arr.entries] at h
    exact List.eq_of_mem_replicate h

/-- C51 for the boundary coordinates, as far as it holds: they are unset when the new index is an array whose shape is
not theirs. -/
theorem C51_coords_unset_partial (v : VD) (l : List ℤ)
    (hs : ∀ x ∈ [v.ocbLat, v.ocbMlt, v.rCorr], x.shape ≠ some l.length) :
    CoordsNan (setOcbInd v (.many l)).1 := by
  have hmax : maxShape (distinct [v.ocbLat.shape, v.ocbMlt.shape, v.rCorr.shape]) ≠ some l.length := by
    have key : ∀ (m : List Shape) (c : Shape), (∀ x ∈ m, x ≠ some l.length) → c ≠ some l.length →
        m.foldl (fun a b => if shapeLe a b then b else a) c ≠ some l.length := by
      intro m
      induction m with
      | nil => intro c _ hc; exact hc
      | cons y m ih =>
        intro c hm hc
        apply ih
        · exact fun x hx => hm x (List.mem_cons_of_mem _ hx)
        · beta_reduce
          split_ifs
          · exact hm y List.mem_cons_self
          · exact hc
    apply key
    · intro x hx
      have : x ∈ [v.ocbLat.shape, v.ocbMlt.shape, v.rCorr.shape] := by
        have gen : ∀ (m acc : List Shape), x ∈ m.foldl (fun acc s => if s ∈ acc then acc else acc ++ [s]) acc →
            x ∈ acc ∨ x ∈ m := by
          intro m
          induction m with
          | nil => intro acc h; exact .inl h
          | cons y m ih =>
            intro acc h
            rcases ih _ h with h' | h'
            · beta_reduce at h'
              split_ifs at h' with hy
              · exact .inl h'
              · rcases List.mem_append.1 h' with h'' | h''
                · exact .inl h''
                · exact .inr (List.mem_cons.2 (.inl (List.mem_singleton.1 h'')))
            · exact .inr (List.mem_cons_of_mem _ h')
        rcases gen _ _ hx with h | h
        · simp at h
        · exact h
      simp only [List.mem_cons, List.not_mem_nil, or_false] at this
      rcases this with h | h | h <;> rw [h] <;> exact hs _ (by simp)
    · simp
  have hfail : testBoundShape { v with ocbInd := .many l } = ({ v with ocbInd := .many l }, .error .inputs) := by
    unfold testBoundShape
    simp only
    rw [if_pos (.inl ⟨by simp [Arr.shape], .inr (by simpa [Arr.shape] using hmax)⟩)]
  unfold setOcbInd
  rw [hfail]
  simp only
  have hnan : CoordsNan (unsetBound { v with ocbInd := .many l }) := by
    intro x hx y hy
    simp only [unsetBound, List.mem_cons, List.not_mem_nil, or_false, or_self] at hx
    rw [hx] at hy
    exact spread_entries _ _ _ hy
  obtain ⟨s, h1, -, -⟩ := testBoundShape_spec (unsetBound { v with ocbInd := .many l })
  rcases hq : testBoundShape (unsetBound { v with ocbInd := .many l }) with ⟨w, e | u⟩ <;>
  · rw [hq] at h1
    simp only at h1 ⊢
    subst h1
    exact hnan

/-- The attributes that the later parts of `set_ocb` leave alone. -/
def SameCoords (v w : VD) : Prop := w.ocbLat = v.ocbLat ∧ w.ocbMlt = v.ocbMlt ∧ w.rCorr = v.rCorr

theorem SameCoords.trans {u v w : VD} (h : SameCoords u v) (h' : SameCoords v w) : SameCoords u w :=
  ⟨h'.1.trans h.1, h'.2.1.trans h.2.1, h'.2.2.trans h.2.2⟩

theorem poleStep_same {b : Bnd} {v w : VD} (h : poleStep b v = .ok w) : SameCoords v w := by
  unfold poleStep at h
  simp only [bind, Except.bind, pure, Except.pure] at h
  repeat' split at h
  all_goals first
    | contradiction
    | (cases h; exact ⟨rfl, rfl, rfl⟩)

theorem calcPoleAngle_same {v w : VD} (h : calcPoleAngle v = .ok w) : SameCoords v w := by
  unfold calcPoleAngle at h
  simp only [bind, Except.bind, pure, Except.pure] at h
  repeat' split at h
  all_goals first
    | contradiction
    | (cases h; exact ⟨rfl, rfl, rfl⟩)

theorem defineQuadrants_same {v w : VD} (h : defineQuadrants v = .ok w) : SameCoords v w := by
  unfold defineQuadrants at h
  simp only [bind, Except.bind, pure, Except.pure] at h
  repeat' split at h
  all_goals first
    | contradiction
    | (cases h; exact ⟨rfl, rfl, rfl⟩)

theorem scaleVector_same {v w : VD} (h : scaleVector v = .ok w) : SameCoords v w := by
  unfold scaleVector at h
  split_ifs at h
  cases ha : adjust v with
  | error e => rw [ha] at h; cases h
  | ok out =>
    rw [ha] at h
    simp only [bind, Except.bind, pure, Except.pure] at h
    split at h
    · contradiction
    · split at h
      · contradiction
      · cases h; exact ⟨rfl, rfl, rfl⟩

theorem pickScale_same (f : Option (F → F → F → F)) (v : VD) : SameCoords v (pickScale f v) := by
  unfold pickScale; split <;> exact ⟨rfl, rfl, rfl⟩

theorem rotateStep_same {f : Option (F → F → F → F)} {v w : VD} (h : rotateStep f v = .ok w) : SameCoords v w := by
  unfold rotateStep at h
  simp only [bind, Except.bind, pure, Except.pure] at h
  split at h
  · contradiction
  · rename_i v1 h1
    split at h
    · cases h; exact calcPoleAngle_same h1
    · split at h
      · contradiction
      · rename_i v2 h2
        exact ((calcPoleAngle_same h1).trans (defineQuadrants_same h2)).trans
          ((pickScale_same f v2).trans (scaleVector_same h))

/-- One of the boundary coordinates is missing altogether. -/
def Gap (v : VD) : Prop := (∀ x ∈ v.ocbLat.entries, x = none) ∨ (∀ x ∈ v.ocbMlt.entries, x = none) ∨ ∀ x ∈ v.rCorr.entries, x = none

theorem gap_iff (v : VD) : coordsMissing v = true ↔ Gap v := by
  unfold coordsMissing Gap Arr.allNan
  simp only [Bool.or_eq_true, List.all_eq_true, Option.isNone_iff_eq_none, or_assoc]

theorem not_gap {v : VD} (h : ¬ Gap v) : coordsMissing v = false := by
  rw [← gap_iff] at h
  simpa using h

/-- Without missing coordinates `set_ocb` on magnetic vectors keeps the boundary coordinates it finds. -/
theorem setOcb_keeps (conv : VD → Arr Tod → ℤ → Except PyErr VD) (b : Bnd) (f : Option (F → F → F → F))
    (v w : VD) (r : ℤ) (hm : v.vectCoord = "magnetic") (hc : coordsMissing v = false)
    (h : setOcb conv b f v = .ok (w, r)) : SameCoords v w := by
  unfold setOcb fillCoords at h
  simp only [bind, Except.bind, pure, Except.pure, hm, ne_eq, not_true_eq_false, if_false, hc,
    Bool.false_eq_true] at h
  split at h
  · contradiction
  · split at h
    · contradiction
    · rename_i v1 h1
      split at h
      · contradiction
      · rename_i v2 h2
        cases h
        exact (poleStep_same h1).trans (rotateStep_same h2)

/-- C51 is false for the boundary coordinates: after the assignment of another single index they are still those of
the old one, and a following `set_ocb` keeps them, whatever boundary is given. -/
theorem C51_stale_refuted (conv : VD → Arr Tod → ℤ → Except PyErr VD) (b : Bnd) (f : Option (F → F → F → F))
    (v : VD) (k : ℤ) (s : Shape) (h1 : v.ocbLat.shape = s) (h2 : v.ocbMlt.shape = s) (h3 : v.rCorr.shape = s)
    (hm : v.vectCoord = "magnetic") (hc : ¬ Gap v) :
    (setOcbInd v (.one k)).2 = .ok () ∧ (setOcbInd v (.one k)).1.ocbInd = .one k ∧
    SameCoords v (setOcbInd v (.one k)).1 ∧
    ∀ w r, setOcb conv b f (setOcbInd v (.one k)).1 = .ok (w, r) → SameCoords v w := by
  have ht : testBoundShape { v with ocbInd := .one k } = ({ v with ocbInd := .one k }, .ok ()) :=
    testBoundShape_one _ k s rfl h1 h2 h3
  have hs : setOcbInd v (.one k) = (clearData { v with ocbInd := .one k }, .ok ()) := by
    unfold setOcbInd; rw [ht]
  rw [hs]
  refine ⟨rfl, rfl, ⟨rfl, rfl, rfl⟩, fun w r h => ?_⟩
  exact setOcb_keeps conv b f (clearData { v with ocbInd := .one k }) w r hm (not_gap hc) h

/-- The premises occur: a single vector whose boundary coordinates are known. -/
example : ∃ v, construct id { oneArgs 0 3 75 22 50 86 5 "magnetic" "magnetic" with
      ocbLat := .one (some 86), ocbMlt := .one (some 6), rCorr := .one (some 0) } = .ok v ∧
    v.ocbInd = .one 3 ∧ v.ocbLat.shape = none ∧ v.ocbMlt.shape = none ∧ v.rCorr.shape = none ∧
    v.vectCoord = "magnetic" ∧ ¬ Gap v := by
  rw [construct_eq]
  simp only [oneArgs, id, (C50_test "magnetic" "magnetic").1.2 (by simp [Compatible])]
  refine ⟨_, rfl, rfl, rfl, rfl, rfl, rfl, ?_⟩
  rw [← gap_iff]
  exact Bool.false_ne_true

theorem unset_shapes (v : VD) : (unsetBound v).ocbLat.shape = v.ocbInd.shape ∧
    (unsetBound v).ocbMlt.shape = v.ocbInd.shape ∧ (unsetBound v).rCorr.shape = v.ocbInd.shape :=
  ⟨spread_shape _ _, spread_shape _ _, spread_shape _ _⟩

theorem distinct_same (s : Shape) : distinct [s, s, s] = [s] := by simp [distinct]

/-- After the recovery the test can only object to the shape of the data. -/
theorem testBoundShape_unset {v : VD} (ks : List ℤ) (h : v.ocbInd = .many ks) (hd : v.datInd.shape = none) :
    (testBoundShape (unsetBound v)).2 = .ok () := by
  obtain ⟨h1, h2, h3⟩ := unset_shapes v
  unfold testBoundShape
  simp only [h1, h2, h3, distinct_same]
  have ho : (unsetBound v).ocbInd = .many ks := h
  have hdd : (unsetBound v).datInd.shape = none := hd
  simp only [ho, h, hdd]
  simp [maxShape, shapeLe, Arr.shape]

/-- C51 is false for the shape: a single vector that was given an array of indices and then a single one keeps results
of the array's length. -/
theorem C51_shape_refuted (v : VD) (d k : ℤ) (ks : List ℤ) (hd : v.datInd = .one d) :
    let v₁ := (setOcbInd v (.many ks)).1
    let v₂ := (setOcbInd v₁ (.one k)).1
    (setOcbInd v (.many ks)).2 = .ok () ∧ (setOcbInd v₁ (.one k)).2 = .ok () ∧
    v₂.ocbInd = .one k ∧ v₂.datInd = .one d ∧ Cleared v₂ (some ks.length) := by
  -- the second assignment, from any state that passed the test with an array
  have second : ∀ w : VD, w.datInd = .one d → w.vshape = some ks.length →
      (¬ (distinct [w.ocbLat.shape, w.ocbMlt.shape, w.rCorr.shape]).length > 2 ∧
        ¬ ((distinct [w.ocbLat.shape, w.ocbMlt.shape, w.rCorr.shape]).length = 2 ∧
          none ∉ distinct [w.ocbLat.shape, w.ocbMlt.shape, w.rCorr.shape])) →
      (setOcbInd (clearData w) (.one k)).2 = .ok () ∧ (setOcbInd (clearData w) (.one k)).1.ocbInd = .one k ∧
      (setOcbInd (clearData w) (.one k)).1.datInd = .one d ∧
      Cleared (setOcbInd (clearData w) (.one k)).1 (some ks.length) := by
    intro w hw hs ⟨c1, c2⟩
    have ht : testBoundShape { clearData w with ocbInd := .one k } = ({ clearData w with ocbInd := .one k }, .ok ()) := by
      unfold testBoundShape
      simp only
      rw [if_neg (by
        rintro (h | h | h)
        · exact h.1 rfl
        · exact c1 h
        · exact c2 h), if_pos (show (Arr.one k).shape = none from rfl)]
    have hse : setOcbInd (clearData w) (.one k) = (clearData { clearData w with ocbInd := .one k }, .ok ()) := by
      unfold setOcbInd; rw [ht]
    rw [hse]
    refine ⟨rfl, rfl, hw, ?_⟩
    have := clearData_cleared { clearData w with ocbInd := .one k }
    rw [show (VD.vshape { clearData w with ocbInd := .one k }) = some ks.length from hs] at this
    exact this
  -- a state that passes the test with the array
  have pass : ∀ w : VD, w.ocbInd = .many ks → w.datInd = .one d → (testBoundShape w).2 = .ok () →
      testBoundShape w = ({ w with vshape := some ks.length }, .ok ()) ∧
      (¬ (distinct [w.ocbLat.shape, w.ocbMlt.shape, w.rCorr.shape]).length > 2 ∧
        ¬ ((distinct [w.ocbLat.shape, w.ocbMlt.shape, w.rCorr.shape]).length = 2 ∧
          none ∉ distinct [w.ocbLat.shape, w.ocbMlt.shape, w.rCorr.shape])) := by
    intro w hi hw h
    unfold testBoundShape at h ⊢
    simp only [hi, hw] at h ⊢
    have c : ¬ _ := fun c => by rw [if_pos c] at h; simp at h
    rw [if_neg c]
    push Not at c
    refine ⟨?_, by omega, fun h => c.2.2 h.1 |> h.2⟩
    have hne : (Arr.many ks).shape ≠ none := by simp [Arr.shape]
    have := (c.1 hne).2
    rw [if_neg hne, if_pos (show (Arr.one d).shape = none from rfl), this]
    rfl
  intro v₁ v₂
  rcases hq : testBoundShape { v with ocbInd := .many ks } with ⟨w, e | u⟩
  · obtain ⟨s, h1, -, -⟩ := testBoundShape_spec { v with ocbInd := .many ks }
    rw [hq] at h1
    simp only at h1
    have he : e = .inputs := by
      unfold testBoundShape at hq
      simp only at hq
      split_ifs at hq with c1 c2 c3 c4
      · cases hq; rfl
      · simp at hq
      · simp at hq
      · exact absurd (by rw [hd]; rfl) c3
      · simp at hq
    have hu := testBoundShape_unset (v := w) ks (by rw [h1]) (by rw [h1]; exact congrArg Arr.shape hd)
    have hp := pass (unsetBound w) (by rw [h1]; rfl) (by rw [h1]; exact hd) hu
    have h2 : setOcbInd v (.many ks) = (clearData { unsetBound w with vshape := some ks.length }, .ok ()) := by
      unfold setOcbInd; rw [hq, he]; simp only; rw [hp.1]
    have := second { unsetBound w with vshape := some ks.length } (by rw [h1]; exact hd) rfl hp.2
    have hv1 : v₁ = clearData { unsetBound w with vshape := some ks.length } := congrArg Prod.fst h2
    simp only [v₂, hv1]
    exact ⟨congrArg Prod.snd h2, this⟩
  · have hp := pass { v with ocbInd := .many ks } rfl hd (by rw [hq])
    have h1 : setOcbInd v (.many ks) = (clearData { v with ocbInd := .many ks, vshape := some ks.length }, .ok ()) := by
      unfold setOcbInd; rw [hp.1]
    have := second { v with ocbInd := .many ks, vshape := some ks.length } hd rfl hp.2
    have hv1 : v₁ = clearData { v with ocbInd := .many ks, vshape := some ks.length } := congrArg Prod.fst h1
    simp only [v₂, hv1]
    exact ⟨congrArg Prod.snd h1, this⟩

/-- C51 is false for a refused assignment: an index array of another length than the data raises, but the object has
the new index and the results of the old one. -/
theorem C51_refused_refuted (v : VD) (l : List ℤ) (n : ℕ) (hd : v.datInd.shape = some n) (hv : v.vshape = some n)
    (hl : l.length ≠ n) :
    (setOcbInd v (.many l)).2 = .error .valueError ∧ (setOcbInd v (.many l)).1.ocbInd = .many l ∧
    (setOcbInd v (.many l)).1.ocbN = v.ocbN ∧ (setOcbInd v (.many l)).1.poleAngle = v.poleAngle := by
  have key : ∀ w : VD, w.ocbInd = .many l → w.datInd.shape = some n → w.vshape = some n →
      ∃ e, testBoundShape w = (w, .error e) := by
    intro w h1 h2 h3
    unfold testBoundShape
    simp only [h1, h2, h3]
    split_ifs with c1 c2 c3 c4
    · exact ⟨_, rfl⟩
    · simp [Arr.shape] at c2
    · simp at c3
    · exact ⟨_, rfl⟩
    · push Not at c1 c4
      have := (c1.1 c2).2
      rw [c4] at this
      simp [Arr.shape] at this
      exact absurd this.symm hl
  obtain ⟨e, he⟩ := key { v with ocbInd := .many l } rfl hd hv
  unfold setOcbInd
  rw [he]
  cases e with
  | vector => exact ⟨rfl, rfl, rfl, rfl⟩
  | inputs =>
    obtain ⟨e', he'⟩ := key (unsetBound { v with ocbInd := .many l }) rfl hd (by
      have : v.datInd.shape ≠ none := by rw [hd]; simp
      change (if v.datInd.shape = none then _ else v.vshape) = _
      rw [if_neg this]; exact hv)
    simp only
    rw [he']
    exact ⟨rfl, rfl, rfl, rfl⟩

theorem distinct_mem (l : List Shape) (x : Shape) : x ∈ distinct l ↔ x ∈ l := by
  have gen : ∀ (m acc : List Shape), x ∈ m.foldl (fun acc s => if s ∈ acc then acc else acc ++ [s]) acc ↔
      x ∈ acc ∨ x ∈ m := by
    intro m
    induction m with
    | nil => intro acc; simp
    | cons y m ih =>
      intro acc
      rw [List.foldl_cons, ih]
      beta_reduce
      split_ifs with hy
      · simp only [List.mem_cons]
        constructor
        · rintro (h | h)
          · exact .inl h
          · exact .inr (.inr h)
        · rintro (h | rfl | h)
          · exact .inl h
          · exact .inl hy
          · exact .inr h
      · simp only [List.mem_append, List.mem_cons, List.not_mem_nil, or_false]
        tauto
  unfold distinct
  rw [gen]
  simp

theorem distinct_nodup (l : List Shape) : (distinct l).Nodup := by
  have gen : ∀ (m acc : List Shape), acc.Nodup →
      (m.foldl (fun acc s => if s ∈ acc then acc else acc ++ [s]) acc).Nodup := by
    intro m
    induction m with
    | nil => intro acc h; exact h
    | cons y m ih =>
      intro acc h
      rw [List.foldl_cons]
      apply ih
      beta_reduce
      split_ifs with hy
      · exact h
      · exact List.nodup_append.2 ⟨h, List.nodup_singleton y, by
          intro a ha b hb; rw [List.mem_singleton.1 hb]; rintro rfl; exact hy ha⟩
  exact gen l [] List.nodup_nil

theorem maxShape_pair (n : ℕ) : maxShape [some n] = some n ∧ maxShape [none, some n] = some n ∧
    maxShape [some n, none] = some n ∧ maxShape [none] = none := by
  simp [maxShape, shapeLe]

/-- The shapes that pass the vector test: all equal, or those of the vector components single and the rest equal. -/
theorem distinct_cases (l : List Shape) (h1 : ¬ ((distinct l).length > 2 ∨ ((distinct l).length = 2 ∧ none ∉ distinct l)))
    (hl : l ≠ []) : (∃ s, distinct l = [s]) ∨ ∃ n, distinct l = [none, some n] ∨ distinct l = [some n, none] := by
  push Not at h1
  have hnd := distinct_nodup l
  have hm := distinct_mem l
  generalize distinct l = d at *
  match d, h1, hnd, hm with
  | [], _, _, hm =>
    obtain ⟨x, hx⟩ := List.exists_mem_of_ne_nil l hl
    exact absurd ((hm x).2 hx) (by simp)
  | [s], _, _, _ => exact .inl ⟨s, rfl⟩
  | [a, b], h1, hnd, _ =>
    right
    have hab : a ≠ b := by simpa using hnd
    have := h1.2 rfl
    simp only [List.mem_cons, List.not_mem_nil, or_false] at this
    rcases this with h | h
    · subst h
      cases b with
      | none => exact absurd rfl hab
      | some n => exact ⟨n, .inl rfl⟩
    · subst h
      cases a with
      | none => exact absurd rfl hab
      | some n => exact ⟨n, .inr rfl⟩
  | a :: b :: c :: d, h1, _, _ => exact absurd h1.1 (by simp)

/-- What the vector test does to a state. -/
theorem testVectorShape_spec (v : VD) :
    SameCoords v (testVectorShape v).1 ∧ (testVectorShape v).1.datInd = v.datInd ∧
    (testVectorShape v).1.ocbInd = v.ocbInd ∧
    ((testVectorShape v).2 = .ok () → (testVectorShape v).1.vshape = v.datInd.shape ∧
      ∀ x ∈ [(testVectorShape v).1.vectN, (testVectorShape v).1.vectE, (testVectorShape v).1.vectZ],
        x.shape = v.datInd.shape) := by
  unfold testVectorShape
  simp only
  generalize hL : [v.lat.shape, v.lt.shape, v.datInd.shape, v.vectN.shape, v.vectE.shape, v.vectZ.shape] = L
  have hLd : v.datInd.shape ∈ distinct L := by rw [distinct_mem, ← hL]; simp
  have hLn : v.vectN.shape ∈ distinct L := by rw [distinct_mem, ← hL]; simp
  have hLe : v.vectE.shape ∈ distinct L := by rw [distinct_mem, ← hL]; simp
  have hLz : v.vectZ.shape ∈ distinct L := by rw [distinct_mem, ← hL]; simp
  split_ifs with c1 c2 c3
  · exact ⟨⟨rfl, rfl, rfl⟩, rfl, rfl, by simp⟩
  · exact ⟨⟨rfl, rfl, rfl⟩, rfl, rfl, by simp⟩
  · refine ⟨⟨rfl, rfl, rfl⟩, rfl, rfl, fun _ => ?_⟩
    obtain ⟨s, hs⟩ | ⟨n, hs⟩ := distinct_cases L c1 (by rw [← hL]; simp)
    · rw [hs] at c2; simp at c2
    · have hmax : maxShape (distinct L) = some n := by
        rcases hs with hs | hs <;> rw [hs]
        · exact (maxShape_pair n).2.1
        · exact (maxShape_pair n).2.2.1
      have two : ∀ x, x ∈ distinct L → x = none ∨ x = some n := by
        intro x hx
        rcases hs with hs | hs <;> rw [hs] at hx <;> simp at hx
        · exact hx
        · exact hx.symm
      have hd : v.datInd.shape = some n := (two _ hLd).resolve_left c3
      rw [hmax, hd]
      have grow : ∀ x : Arr F, x.shape ∈ distinct L → (match x with
          | .one a => Arr.full (some n) a
          | x => x).shape = some n := by
        intro x hx
        cases x with
        | one a => simp [Arr.full, Arr.shape]
        | many l => exact (two _ hx).resolve_left (by simp [Arr.shape])
      refine ⟨rfl, fun x hx => ?_⟩
      simp only [List.mem_cons, List.not_mem_nil, or_false] at hx
      rcases hx with rfl | rfl | rfl
      · exact grow _ hLn
      · exact grow _ hLe
      · exact grow _ hLz
  · refine ⟨⟨rfl, rfl, rfl⟩, rfl, rfl, fun _ => ?_⟩
    obtain ⟨s, hs⟩ | ⟨n, hs⟩ := distinct_cases L c1 (by rw [← hL]; simp)
    · rw [hs] at hLd hLn hLe hLz
      simp only [List.mem_cons, List.not_mem_nil, or_false] at hLd hLn hLe hLz
      rw [hs, hLd]
      refine ⟨?_, fun x hx => ?_⟩
      · cases s with
        | none => exact (maxShape_pair 0).2.2.2
        | some n => exact (maxShape_pair n).1
      · simp only [List.mem_cons, List.not_mem_nil, or_false] at hx
        rcases hx with rfl | rfl | rfl
        · exact hLn
        · exact hLe
        · exact hLz
    · exact absurd ⟨by rcases hs with hs | hs <;> rw [hs] <;> simp,
        by rcases hs with hs | hs <;> rw [hs] <;> simp⟩ c2

theorem zip_same {α β : Type*} (x : Arr α) (y : Arr β) (h : x.shape = y.shape) :
    ∃ z, x.zip y = .ok z ∧ z.shape = x.shape := by
  cases x with
  | one a =>
    cases y with
    | one b => exact ⟨_, rfl, rfl⟩
    | many m => simp [Arr.shape] at h
  | many l =>
    cases y with
    | one b => simp [Arr.shape] at h
    | many m =>
      have hlm : l.length = m.length := by simpa [Arr.shape] using h
      refine ⟨.many (l.zip m), ?_, ?_⟩
      · simp [Arr.zip, hlm]
      · simp [Arr.shape, hlm]

theorem map_shape {α β : Type*} (f : α → β) (x : Arr α) : (x.map f).shape = x.shape := by
  cases x <;> simp [Arr.map, Arr.shape]

/-- C51 for `dat_ind` as far as it holds: a successful assignment stores the index, leaves none of the rotated
results, and gives components, magnitude and results the shape of the new index.  Missing: the boundary coordinates,
which stay as they are (last clause). -/
theorem C51_dat_ind_partial (v : VD) (i : Arr ℤ) (hi : v.ocbInd.shape = none ∨ i.shape ≠ none)
    (h : (setDatInd v i).2 = .ok ()) :
    let v' := (setDatInd v i).1
    v'.datInd = i ∧ v'.ocbInd = v.ocbInd ∧ Cleared v' i.shape ∧ v'.vectN.shape = i.shape ∧ v'.vectE.shape = i.shape ∧
    v'.vectZ.shape = i.shape ∧ v'.vectMag.shape = i.shape ∧ SameCoords v v' := by
  unfold setDatInd at h ⊢
  simp only at h ⊢
  obtain ⟨s1, s2, s3, s4⟩ := testVectorShape_spec { v with datInd := i }
  rcases hq : testVectorShape { v with datInd := i } with ⟨w, e | u⟩
  · rw [hq] at h; simp at h
  · rw [hq] at h s1 s2 s3 s4
    simp only at h s1 s2 s3 s4 ⊢
    obtain ⟨s4, s5⟩ := s4 trivial
    obtain ⟨t, t1, t2, t3⟩ := testBoundShape_spec w
    rcases hq' : testBoundShape w with ⟨w', e | u⟩
    · rw [hq'] at h; simp at h
    · rw [hq'] at h t1 t3
      simp only at h t1 t3 ⊢
      have ht : t = i.shape := by
        rcases t2 with t2 | ⟨t2, t4⟩
        · rw [t2, s4]
        · rw [s2] at t2
          rw [s3] at t4
          rcases hi with hi | hi
          · rw [t4, hi, t2]
          · exact absurd t2 hi
      subst t1
      obtain ⟨ne, hne, sne⟩ := zip_same w.vectN w.vectE (by rw [s5 _ (by simp), s5 _ (by simp)])
      obtain ⟨nez, hnez, snez⟩ := zip_same ne w.vectZ (by rw [sne, s5 _ (by simp), s5 _ (by simp)])
      have hmag : magArr w.vectN w.vectE w.vectZ = .ok (nez.map mag3) := by
        unfold magArr; rw [hne]; simp only [bind, Except.bind, pure, Except.pure]; rw [hnez]
      have hset : setVectMag (clearData { w with vshape := t }) (.one none) =
          .ok { clearData { w with vshape := t } with vectMag := nez.map mag3 } := by
        unfold setVectMag
        rw [show magArr (clearData { w with vshape := t }).vectN (clearData { w with vshape := t }).vectE
          (clearData { w with vshape := t }).vectZ = .ok (nez.map mag3) from hmag]
        rfl
      rw [hset]
      simp only
      refine ⟨s2, s3, ?_, s5 w.vectN (by simp), s5 w.vectE (by simp), s5 w.vectZ (by simp), ?_, s1⟩
      · have := clearData_cleared { w with vshape := t }
        rw [show (VD.vshape { w with vshape := t }) = i.shape from ht] at this
        exact ⟨this.n, this.e, this.z, this.mag, this.pq, this.vq, this.ang, this.lat, this.mlt⟩
      · rw [map_shape, snez, sne]; exact s5 _ (by simp)

/-- The premises occur: a single vector given a pair of data indices. -/
example : ∃ v, construct id (oneArgs 0 3 75 22 50 86 5 "magnetic" "magnetic") = .ok v ∧
    (setDatInd v (.many [4, 5])).2 = .ok () ∧ (setDatInd v (.many [4, 5])).1.vectN = .many [some 50, some 50] := by
  rw [construct_eq]
  simp only [oneArgs, id, (C50_test "magnetic" "magnetic").1.2 (by simp [Compatible])]
  exact ⟨_, rfl, rfl, rfl⟩

end Ocb.Scale
