import Verif.Props.VectMag

/-!
# C118 to C121: magnetic components of geographic vectors, the claims
-/

set_option autoImplicit false

namespace Ocb.Scale

open Ocb.Time Ocb.Coord Ocb.Vec

/-! ## C118 -/

theorem hour_trig {a b : ℝ} (h : SameHour a b) :
    Real.cos (hourAngle a) = Real.cos (hourAngle b) ∧ Real.sin (hourAngle a) = Real.sin (hourAngle b) := by
  obtain ⟨k, rfl⟩ := h
  have : hourAngle (b + k * 24) = hourAngle b + k * (2 * Real.pi) := by unfold hourAngle; ring
  rw [this, Real.cos_add_int_mul_two_pi, Real.sin_add_int_mul_two_pi]
  exact ⟨rfl, rfl⟩

theorem place_hour {a b : ℝ} (lat : ℝ) (h : SameHour a b) : place lat a = place lat b := by
  unfold place
  rw [(hour_trig h).1, (hour_trig h).2]

theorem horiz_hour {a b : ℝ} (lat n e : ℝ) (h : SameHour a b) : horiz lat a n e = horiz lat b n e := by
  unfold horiz northAt eastAt
  rw [(hour_trig h).1, (hour_trig h).2]

theorem GV.north_eq (y : GV) (h : 0 < y.pa) :
    y.north = towards (place y.da y.dl) (place y.pa y.pl) (horiz y.da y.dl y.n y.e) := by
  rw [towards_eq, GV.north, sign_pos h, SignType.coe_one, one_mul]

theorem GV.east_eq (y : GV) (h : 0 < y.pa) :
    y.east = rightOf (place y.da y.dl) (place y.pa y.pl) (horiz y.da y.dl y.n y.e) := by
  rw [rightOf_eq, GV.east, sign_pos h, SignType.coe_one, one_mul]

/-- C118 as far as it holds: with a magnetic pole in the northern hemisphere, `update_vect_coords_to_mag` gives every
vector its component towards the magnetic pole and the one to the right of that direction; vertical component and
magnitude stay.  For single vectors and arrays, single times and arrays, locations in the vectors' own system or in
the magnetic one.  Missing: a southern pole, vectors on the meridian of the pole, arrays with missing entries (all
three refuted below), and a single time for an array of heights (C121). -/
theorem C118_northern_partial (lower : String → String)
    (hl : ∀ s ∈ ["magnetic", "geocentric", "geodetic"], lower s = s) (A : Aacgm) (hem : ℤ) (v : VD) (ts : Arr Tod) (m : ℕ)
    (hm : 0 < m) (ys : ℕ → GeoIn) (h : HoldsGeo A hem v ts m ys) (hg : ∀ i, i < m → (ys i).Good)
    (hN : ∀ i, i < m → 0 < (ys i).plat) :
    ∃ w, updateVect lower A v ts hem = .ok w ∧ w.vectCoord = "magnetic" ∧ w.locCoord = "magnetic" ∧
      (Reads w.vectN m fun i =>
        some (towards (place (ys i).da (ys i).dl) (place (ys i).plat ((ys i).plon / 15 + utHours (ys i).t))
          (horiz (ys i).da (ys i).dl (ys i).n (ys i).e))) ∧
      (Reads w.vectE m fun i =>
        some (rightOf (place (ys i).da (ys i).dl) (place (ys i).plat ((ys i).plon / 15 + utHours (ys i).t))
          (horiz (ys i).da (ys i).dl (ys i).n (ys i).e))) ∧
      (Reads w.vectZ m fun i => some (ys i).z) ∧
      (Reads w.vectMag m fun i => some (√((ys i).n ^ 2 + (ys i).e ^ 2 + (ys i).z ^ 2))) := by
  obtain ⟨w, gs, h1, h2, h3, h4, h5, h6, h7, h8⟩ := updateVect_out lower hl A hem v ts m hm ys h hg
  refine ⟨w, h1, h2, h3, h4.congr fun i hi => ?_, h5.congr fun i hi => ?_, h6.congr fun i hi => ?_, h7⟩
  · obtain ⟨-, a1, a2, a3, a4, -, a6, a7⟩ := h8 i hi
    rw [GV.north_eq _ (by rw [a6]; exact hN i hi), a1, a3, a4, a6, place_hour _ a2, horiz_hour _ _ _ a2, place_hour _ a7]
  · obtain ⟨-, a1, a2, a3, a4, -, a6, a7⟩ := h8 i hi
    rw [GV.east_eq _ (by rw [a6]; exact hN i hi), a1, a3, a4, a6, place_hour _ a2, horiz_hour _ _ _ a2, place_hour _ a7]
  · rw [(h8 i hi).2.2.2.2.2.1]

/-- C118 is false in the southern hemisphere: for a southern magnetic pole the north component of any vector with an
east component is not the one away from that pole. -/
theorem C118_southern_refuted (lower : String → String)
    (hl : ∀ s ∈ ["magnetic", "geocentric", "geodetic"], lower s = s) (A : Aacgm) (hem : ℤ) (v : VD) (ts : Arr Tod) (m : ℕ)
    (hm : 0 < m) (ys : ℕ → GeoIn) (h : HoldsGeo A hem v ts m ys) (hg : ∀ i, i < m → (ys i).Good) (j : ℕ) (hj : j < m)
    (hS : (ys j).plat < 0) (he : (ys j).e ≠ 0) :
    ∃ w f, updateVect lower A v ts hem = .ok w ∧ w.vectCoord = "magnetic" ∧ (Reads w.vectN m f) ∧
      f j ≠ some (-towards (place (ys j).da (ys j).dl) (place (ys j).plat ((ys j).plon / 15 + utHours (ys j).t))
          (horiz (ys j).da (ys j).dl (ys j).n (ys j).e)) := by
  obtain ⟨w, gs, h1, h2, -, h4, -, -, -, h8⟩ := updateVect_out lower hl A hem v ts m hm ys h hg
  refine ⟨w, _, h1, h2, h4, ?_⟩
  obtain ⟨a0, a1, a2, a3, a4, -, a6, a7⟩ := h8 j hj
  have h' : Real.sin (hourAngle ((gs j).pl - (gs j).dl)) ≠ 0 := by
    rw [Ne, sin_hour_zero]; push Not; exact a0.off
  intro hc
  have hc := Option.some.inj hc
  rw [← place_hour _ a2, ← horiz_hour _ _ _ a2, ← place_hour _ a7, ← a1, ← a3, ← a4, ← a6, towards_eq, GV.north,
    sign_neg (by rw [a6]; exact hS)] at hc
  have hpos := tLen_pos (a := radians (gs j).da) (b := radians (gs j).pa) (cos_lat_pos a0.lat).ne' h'
  have hw : tE (radians (gs j).pa) (hourAngle ((gs j).pl - (gs j).dl)) ≠ 0 := mul_ne_zero (cos_lat_pos a0.pole).ne' h'
  rw [← neg_div, div_left_inj' hpos.ne'] at hc
  simp only [SignType.coe_neg, SignType.coe_one] at hc
  have : (gs j).e * tE (radians (gs j).pa) (hourAngle ((gs j).pl - (gs j).dl)) = 0 := by linarith
  rcases mul_eq_zero.1 this with h2 | h2
  · exact he (by rw [← a4]; exact h2)
  · exact hw h2

/-- One magnetic location with geographic components, one time: what the code computes. -/
structure OneGeo (A : Aacgm) (hem : ℤ) (v : VD) (t : Tod) (n e z ma ml h ga gl pa pl : F) : Prop where
  coord : v.vectCoord = "geocentric" ∨ v.vectCoord = "geodetic"
  loc : v.locCoord = "magnetic"
  datInd : v.datInd.shape = none
  n : v.vectN = .one n
  e : v.vectE = .one e
  z : v.vectZ = .one z
  lat : v.lat = .one ma
  lt : v.lt = .one ml
  height : v.height = .one h
  geoLat : (A.a2g (decide (v.vectCoord = "geocentric")) ma (A.mlt2lon ml t) h t).1 = ga
  geoLt : liftF (glon2slt · t) (A.a2g (decide (v.vectCoord = "geocentric")) ma (A.mlt2lon ml t) h t).2 = .ok gl
  poleLat : (A.a2g (decide (v.vectCoord = "geocentric")) (some (hem * 90)) (some 0) h t).1 = pa
  poleLt : liftF (glon2slt · t) (A.a2g (decide (v.vectCoord = "geocentric")) (some (hem * 90)) (some 0) h t).2 = .ok pl

theorem updateVect_one (lower : String → String) (hl : ∀ s ∈ ["magnetic", "geocentric", "geodetic"], lower s = s)
    {A : Aacgm} {hem : ℤ} {v : VD} {t : Tod} {n e z ma ml h ga gl pa pl ang : F}
    (hv : OneGeo A hem v t n e z ma ml h ga gl pa pl) (hma : ma ≠ none) (hml : ml ≠ none)
    (ha : Vec.poleAngle gl ga pl pa = .ok ang) :
    updateVect lower A v (.one t) hem = if ang = none then .error .unboundLocal else
      (adjustOne { lt := ml, lat := ma, n := n, e := e, z := z, vq := vectQuad n e, poleLt := pl, poleLat := pa
                   ang := ang, pq := poleQuad gl pl ang }).map fun o =>
        { v with vectN := .one o.1, vectE := .one o.2.1, vectZ := .one o.2.2, vectCoord := "magnetic"
                 vectMag := .one (mag3 ((o.1, o.2.1), o.2.2)) } := by
  have hvm : v.vectCoord ≠ "magnetic" := by rcases hv.coord with h | h <;> rw [h] <;> decide
  have hvl : lower v.vectCoord = v.vectCoord := by
    rcases hv.coord with h | h <;> rw [h] <;> exact hl _ (by simp)
  have hne : lower v.vectCoord ≠ v.locCoord := by rw [hvl, hv.loc]; exact hvm
  set geoc := decide (v.vectCoord = "geocentric") with hgeoc
  have hconv : convLoc A false geoc ma ml h t = .ok (ga, gl) := by
    unfold convLoc
    rw [if_neg (by simp)]
    simp only [bind, Except.bind]
    rw [hv.geoLt, hv.geoLat]
    rfl
  obtain ⟨d, hd⟩ : ∃ d, v.datInd = .one d := by
    cases hd : v.datInd with
    | one d => exact ⟨d, rfl⟩
    | many l => have := hv.datInd; rw [hd] at this; cases this
  have hup : updateLoc lower A v (.one t) v.vectCoord =
      .ok { v with lat := .one ga, lt := .one gl, locCoord := v.vectCoord } := by
    unfold updateLoc
    rw [if_pos hne]
    have hg : growLoc v (.one t) = .ok v := by unfold growLoc; rw [hv.lat, hv.lt]; rfl
    simp only [bind, Except.bind]
    rw [hg]
    simp only [convAll, hv.lat, hv.lt, hv.height, bind, Except.bind, Arr.zip, Arr.mapE]
    rw [show decide (lower v.vectCoord = "magnetic") = false by rw [hvl]; simp [hvm]]
    simp only [Bool.false_eq_true, if_false]
    rw [hvl, ← hgeoc, hconv, hd]
    rfl
  have hb : bothPlaces lower A v (.one t) =
      .ok (v, { geoLt := .one gl, geoLat := .one ga, magLt := .one ml, magLat := .one ma }) := by
    unfold bothPlaces
    rw [if_pos hv.loc, hup]
    simp only [bind, Except.bind, pure, Except.pure]
    rw [hv.lat, hv.lt, hd]
    simp only [spread]
    rw [← hv.lat, ← hv.lt, ← hv.loc, ← hd]
  unfold updateVect
  rw [if_pos hvm, hb]
  simp only [bind, Except.bind]
  rw [if_neg (by
    cases ma with
    | none => exact absurd rfl hma
    | some a =>
      cases ml with
      | none => exact absurd rfl hml
      | some b => simp [Arr.allNan, Arr.entries])]
  have hp : magPole A geoc hem v (.one t) = .ok (.one (pl, pa)) := by
    unfold magPole
    rw [hv.height]
    simp only [single, bind, Except.bind, poleAt]
    rw [hv.poleLt, hv.poleLat]
    rfl
  rw [← hgeoc, hp]
  simp only [Places.even, Arr.shape, ne_eq, not_true_eq_false, if_false, turn, Arr.map, Arr.zip, bind, Except.bind,
    poleAngles]
  rw [ha]
  simp only [Except.map]
  cases ang with
  | none => rfl
  | some p =>
    rw [if_neg (by simp [Arr.allNan, Arr.entries]), if_neg (by simp), hv.n, hv.e]
    simp only [Arr.zip, Arr.map, adjust, hv.z, bind, Except.bind, mkIn]
    cases adjustOne { lt := ml, lat := ma, n := n, e := e, z := z, vq := vectQuad n e, poleLt := pl, poleLat := pa
                      ang := some p, pq := poleQuad gl pl (some p) } with
    | error x => rfl
    | ok o => rfl

/-- On the meridian of a pole further north the component towards the pole is the north component. -/
theorem towards_north {da dl pa pl n e : ℝ} (hm : SameHour pl dl) (hda : |da| < 90) (hpa : pa ≤ 90) (h : da < pa) :
    towards (place da dl) (place pa pl) (horiz da dl n e) = n := by
  obtain ⟨h1, h2⟩ := hourAngle_even hm
  obtain ⟨b1, b2⟩ := abs_lt.1 hda
  have hpos := sin_deg_pos (x := pa - da) (by linarith) (by linarith)
  rw [towards_eq, tLen_meridian h1, tN_same h2, ← radians_sub, abs_of_pos hpos]
  unfold tE
  rw [h1]
  field_simp
  simp

/-- C118 is false on the meridian of the pole: for a vector directly south of the magnetic pole, whose direction is
therefore north, the horizontal components are reversed as soon as the magnetic latitude reaches the geographic
latitude of the pole.  On a sphere the magnetic latitude there is `da + 90 - pa`. -/
theorem C118_meridian_refuted (lower : String → String)
    (hl : ∀ s ∈ ["magnetic", "geocentric", "geodetic"], lower s = s) (A : Aacgm) (hem : ℤ) (v : VD) (t : Tod)
    (n e z ma ml h da dl pa pl : ℝ)
    (hv : OneGeo A hem v t (some n) (some e) (some z) (some ma) (some ml) (some h) (some da) (some dl) (some pa) (some pl))
    (hmer : SameHour pl dl) (h0 : 0 ≤ da) (h1 : da < pa) (h2 : pa ≤ 90) (hma : pa ≤ ma) :
    ∃ w, updateVect lower A v (.one t) hem = .ok w ∧ w.vectN = .one (some (-n)) ∧ w.vectE = .one (some (-e)) ∧
      towards (place da dl) (place pa pl) (horiz da dl n e) = n := by
  have hda : |da| < 90 := by rw [abs_of_nonneg h0]; linarith
  have hang : Vec.poleAngle (some dl) (some da) (some pl) (some pa) = .ok (some 0) := by
    rw [(poleAngle_on (hourAngle_even hmer).1).1, abs_of_nonneg h0, abs_of_pos (by linarith), if_neg (by linarith)]
  have := updateVect_one lower hl hv (by simp) (by simp) hang
  rw [if_neg (by simp), C45_reversed_refuted _ n e ma pa rfl rfl rfl rfl rfl hma] at this
  exact ⟨_, this, rfl, rfl, towards_north hmer hda h2 h1⟩

/-- Two magnetic locations with geographic components and two times.  The geographic place of the second one is not
known. -/
structure TwoGeo (A : Aacgm) (hem : ℤ) (v : VD) (t t' : Tod) (y : GV) (h : F) (n e z ma ml h' gl pa pl : F) : Prop where
  coord : v.vectCoord = "geocentric" ∨ v.vectCoord = "geodetic"
  loc : v.locCoord = "magnetic"
  datInd : ∃ d d', v.datInd = .many [d, d']
  n : v.vectN = .many [some y.n, n]
  e : v.vectE = .many [some y.e, e]
  z : v.vectZ = .many [some y.z, z]
  lat : v.lat = .many [y.ma, ma]
  lt : v.lt = .many [y.ml, ml]
  height : v.height = .many [h, h']
  geo : convLoc A false (decide (v.vectCoord = "geocentric")) y.ma y.ml h t = .ok (some y.da, some y.dl)
  geo' : convLoc A false (decide (v.vectCoord = "geocentric")) ma ml h' t' = .ok (none, gl)
  pole : poleAt A (decide (v.vectCoord = "geocentric")) hem h t = .ok (some y.pl, some y.pa)
  pole' : poleAt A (decide (v.vectCoord = "geocentric")) hem h' t' = .ok (pl, pa)

theorem entry_nolat (lt poleLt poleLat : F) : ∃ a, (a = none) ∧ poleAngleEntry lt none poleLt poleLat = .ok a := by
  unfold poleAngleEntry
  cases hd : ltDiff poleLt lt with
  | none => exact ⟨none, rfl, rfl⟩
  | some d =>
    simp only [bind, Except.bind]
    obtain ⟨r, hr⟩ : ∃ r, hr2rad d Real.pi = .ok r := ⟨_, hr2rad_ok _ _⟩
    rw [hr]
    refine ⟨none, rfl, ?_⟩
    cases poleLat <;> simp [gtF, leF, pure, Except.pure]

theorem GV.Good.range {y : GV} (h : y.Good) : 0 < y.angle ∧ y.angle < 180 := by
  have ha := angle_off (sign_cases h.pole0) h.lat h.pole h.off
  have h0 : 0 ≤ y.angle := by
    unfold GV.angle
    rw [← degrees_zero, degrees_le]
    exact Real.arccos_nonneg _
  have h1 : y.angle ≤ 180 := by
    unfold GV.angle
    rw [← degrees_pi, degrees_le]
    exact Real.arccos_le_pi _
  exact ⟨lt_of_le_of_ne h0 (Ne.symm ha.1), lt_of_le_of_ne h1 ha.2⟩

/-- The north component with any pole quadrant in force that fits the angle. -/
theorem GV.Good.given {y : GV} (h : y.Good) (q : ℤ) (hq : Half q y.angle) :
    (normOut true q (vectQuad (some y.n) (some y.e)) y.vin).1 = some (along (azim q y.angle) y.n y.e) := by
  let x : VIn := { y.vin with pq := q }
  have hN : x.IsNorm := h.norm
  have hin : inQuads q = true := by rcases hq with ⟨hq | hq, -⟩ | ⟨hq | hq, -⟩ <;> rw [hq] <;> decide
  have hw : Whole x := ⟨⟨_, rfl⟩, ⟨_, rfl⟩, ⟨_, rfl⟩, hin, vectQuad_in _ _⟩
  obtain ⟨o, h1, h2⟩ := C42_rotation_given_quadrants x y.n y.e y.angle rfl rfl rfl h.vec h.range.1 h.range.2
    ((C41_vector_quadrant _ _ _).1 rfl) hq
  rw [hw.one, ← hw.nanZ hN] at h1
  have h3 := Except.ok.inj h1
  show (normOut true x.pq x.vq x).1 = _
  rw [h3, h2]

theorem poleQ_half {d p a : ℝ} {q : ℤ} (h : PoleQ d p a q) (h0 : 0 ≤ a) (h1 : a ≤ 180) : Half q a := by
  obtain ⟨x, -, c⟩ := h
  rcases c with ⟨rfl, h, -⟩ | ⟨rfl, h, -⟩ | ⟨rfl, h, -⟩ | ⟨rfl, h, -⟩
  · exact .inl ⟨.inl rfl, h0, h.le⟩
  · exact .inl ⟨.inr rfl, h0, h.le⟩
  · exact .inr ⟨.inl rfl, h, h1⟩
  · exact .inr ⟨.inr rfl, h, h1⟩

/-- C118 is false for arrays with gaps: if the place of one vector is missing, the result for another vector changes
whenever the magnetic pole is on one side of its geographic local time and on the other side of its magnetic local
time. -/
theorem C118_missing_refuted (lower : String → String)
    (hl : ∀ s ∈ ["magnetic", "geocentric", "geodetic"], lower s = s) (A : Aacgm) (hem : ℤ) (v : VD) (t t' : Tod)
    (y : GV) (ma ml a b : ℝ) (h n e z ma' ml' h' gl pa pl : F) (hv : TwoGeo A hem v t t' y h n e z ma' ml' h' gl pa pl)
    (hma : y.ma = some ma) (hml : y.ml = some ml) (hg : y.Good) (hN : 0 < y.pa) (hvec : ¬ (n = some 0 ∧ e = some 0))
    (he : y.e ≠ 0) (ha : Ahead y.dl y.pl a) (ha' : a < 12) (hb : Ahead ml y.pl b) (hb' : 12 ≤ b) :
    ∃ w x x', updateVect lower A v (.many [t, t']) hem = .ok w ∧ w.vectN = .many [some x, x'] ∧
      x ≠ towards (place y.da y.dl) (place y.pa y.pl) (horiz y.da y.dl y.n y.e) := by
  classical
  have hvm : v.vectCoord ≠ "magnetic" := by rcases hv.coord with h | h <;> rw [h] <;> decide
  have hvl : lower v.vectCoord = v.vectCoord := by
    rcases hv.coord with h | h <;> rw [h] <;> exact hl _ (by simp)
  have hne : lower v.vectCoord ≠ v.locCoord := by rw [hvl, hv.loc]; exact hvm
  set geoc := decide (v.vectCoord = "geocentric") with hgeoc
  obtain ⟨d, d', hd⟩ := hv.datInd
  have hup : updateLoc lower A v (.many [t, t']) v.vectCoord =
      .ok { v with lat := .many [some y.da, none], lt := .many [some y.dl, gl], locCoord := v.vectCoord } := by
    unfold updateLoc
    rw [if_pos hne]
    have hg : growLoc v (.many [t, t']) = .ok v := by unfold growLoc; rw [hv.lat, hv.lt]; rfl
    simp only [bind, Except.bind]
    rw [hg]
    simp only [convAll, hv.lat, hv.lt, hv.height, bind, Except.bind, Arr.zip, Arr.mapE, List.length_cons, List.length_nil,
      if_true, List.zip_cons_cons, List.zip_nil_left]
    rw [show decide (lower v.vectCoord = "magnetic") = false by rw [hvl]; simp [hvm]]
    simp only [Bool.false_eq_true, if_false]
    rw [hvl, ← hgeoc, Ocb.mapE, hv.geo, Ocb.mapE, hv.geo', hd]
    rfl
  have hbp : bothPlaces lower A v (.many [t, t']) =
      .ok (v, { geoLt := .many [some y.dl, gl], geoLat := .many [some y.da, none], magLt := .many [y.ml, ml']
                magLat := .many [y.ma, ma'] }) := by
    unfold bothPlaces
    rw [if_pos hv.loc, hup]
    simp only [bind, Except.bind, pure, Except.pure]
    rw [hv.lat, hv.lt, hd]
    simp only [spread]
    rw [← hv.lat, ← hv.lt, ← hv.loc, ← hd]
  have hp : magPole A geoc hem v (.many [t, t']) = .ok (.many [(some y.pl, some y.pa), (pl, pa)]) := by
    unfold magPole
    simp only [List.zipIdx_cons, List.zipIdx_nil, Ocb.mapE, heightAt, hv.height, bind, Except.bind]
    simp only [List.getElem?_cons_zero, Nat.zero_add, List.getElem?_cons_succ]
    rw [hv.pole, hv.pole']
    rfl
  obtain ⟨nan, rfl, hnan⟩ := entry_nolat gl pl pa
  have hang := (C40_off_meridian y.dl y.da y.pl y.pa hg.lat hg.pole0 hg.off).2
  let x1 : VIn := { lt := ml', lat := ma', n := n, e := e, z := z, vq := vectQuad n e, poleLt := pl, poleLat := pa
                    ang := none, pq := poleQuad gl pl none }
  have hN1 : x1.IsNorm := by
    rintro (h | h | h)
    · exact hvec h
    · cases h
    · cases h
  have hp1 : x1.pq = 0 := by
    show poleQuad gl pl none = 0
    unfold poleQuad
    cases ltDiff pl gl <;> rfl
  obtain ⟨o', ho'⟩ : ∃ o', adjustArr [y.vin, x1] =
      .ok [normOut true (poleQuad (some ml) (some y.pl) (some y.angle)) (vectQuad (some y.n) (some y.e)) y.vin, o'] := by
    unfold adjustArr
    rw [if_pos (by simp [hg.norm])]
    rw [if_pos (c := [y.vin, x1].any (fun x => decide (x.IsNorm ∧ x.pq = 0)) = true) (by simp [hN1, hp1])]
    have hvq : ∀ b : Prop, [Decidable b] → (if b then fun x : VIn => vectQuad x.n x.e else VIn.vq) y.vin =
        vectQuad (some y.n) (some y.e) := by
      intro b _
      split <;> rfl
    have hpq : poleQuad y.vin.lt y.vin.poleLt y.vin.ang = poleQuad (some ml) (some y.pl) (some y.angle) := by
      show poleQuad y.ml _ _ = _
      rw [hml]
      rfl
    simp only
    rw [if_neg (by simp [hpq, poleQuad_in]), if_neg (by simp [hvq, vectQuad_in])]
    simp only [List.map_cons, List.map_nil]
    rw [if_pos hg.norm, hvq, hpq]
    exact ⟨_, rfl⟩
  have hq1 := (C41_pole_quadrant ml y.pl y.angle _).1 rfl
  have hq0 := (C41_pole_quadrant y.dl y.pl y.angle _).1 rfl
  have hx := hg.given _ (poleQ_half hq1 hg.range.1.le hg.range.2.le)
  have hx0 := hg.given _ (poleQ_half hq0 hg.range.1.le hg.range.2.le)
  have hz0 : azim (poleQuad (some y.dl) (some y.pl) (some y.angle)) y.angle = y.angle := by
    obtain ⟨c, hc, hc'⟩ := hq0
    obtain rfl := ahead_unique hc ha
    unfold azim
    rcases hc' with ⟨h1, -, -⟩ | ⟨-, -, h2⟩ | ⟨-, -, h2⟩ | ⟨h1, -, -⟩
    · rw [if_pos (.inl h1)]
    · linarith
    · linarith
    · rw [if_pos (.inr h1)]
  have hz1 : azim (poleQuad (some ml) (some y.pl) (some y.angle)) y.angle = -y.angle := by
    obtain ⟨c, hc, hc'⟩ := hq1
    obtain rfl := ahead_unique hc hb
    unfold azim
    rcases hc' with ⟨-, -, h2⟩ | ⟨h1, -, -⟩ | ⟨h1, -, -⟩ | ⟨-, -, h2⟩
    · linarith
    · rw [if_neg (by rw [h1]; decide)]
    · rw [if_neg (by rw [h1]; decide)]
    · linarith
  rw [hz1] at hx
  rw [hz0] at hx0
  have hnorth : along y.angle y.n y.e = y.north := by
    have := hg.out
    rw [← y.whole.nanZ hg.norm] at this
    have h2 := congrArg Prod.fst this
    rw [show (normOut true y.vin.pq y.vin.vq y.vin).1 = _ from hx0] at h2
    exact Option.some.inj h2
  have hadj : turn v { geoLt := .many [some y.dl, gl], geoLat := .many [some y.da, none], magLt := .many [y.ml, ml']
                       magLat := .many [y.ma, ma'] } (.many [(some y.pl, some y.pa), (pl, pa)]) =
      (adjustArr [y.vin, x1]).map Arr.many := by
    unfold turn
    simp only [Arr.map, List.map_cons, List.map_nil, Arr.zip, List.length_cons, List.length_nil,
      if_true, List.zip_cons_cons, List.zip_nil_left, bind, Except.bind, poleAngles, Ocb.mapE]
    rw [hang]
    simp only
    rw [hnan]
    simp only [Except.map]
    rw [if_neg (by simp [Arr.allNan, Arr.entries]), hv.n, hv.e]
    simp only [Arr.zip, List.length_cons, List.length_nil, if_true, List.zip_cons_cons, List.zip_nil_left, Arr.map,
      List.map_cons, List.map_nil, adjust, hv.z, bind, Except.bind, mkIn]
    rfl
  have hres : ∃ w, updateVect lower A v (.many [t, t']) hem = .ok w ∧
      w.vectN = .many [some (along (-y.angle) y.n y.e), o'.1] := by
    unfold updateVect
    rw [if_pos hvm, hbp]
    simp only [bind, Except.bind]
    rw [if_neg (by rw [hma, hml]; simp [Arr.allNan, Arr.entries]), ← hgeoc, hp]
    simp only [Places.even, Arr.shape, List.length_cons, List.length_nil, ne_eq, not_true_eq_false, if_false]
    rw [hadj, ho']
    simp only [Except.map, Arr.map, List.map_cons, List.map_nil, setVectMag]
    rw [hx]
    exact ⟨_, rfl, rfl⟩
  obtain ⟨w, hw1, hw2⟩ := hres
  refine ⟨w, along (-y.angle) y.n y.e, o'.1, hw1, hw2, ?_⟩
  · rw [← y.north_eq hN, ← hnorth]
    unfold along
    have hs : 0 < Real.sin (y.angle * Real.pi / 180) := by
      apply Real.sin_pos_of_pos_of_lt_pi
      · have := hg.range.1; positivity
      · have := hg.range.2
        have := Real.pi_pos
        rw [div_lt_iff₀ (by norm_num)]
        nlinarith
    rw [show -y.angle * Real.pi / 180 = -(y.angle * Real.pi / 180) by ring, Real.cos_neg, Real.sin_neg]
    intro hc
    have : y.e * Real.sin (y.angle * Real.pi / 180) = 0 := by linarith
    rcases mul_eq_zero.1 this with h | h
    · exact he h
    · exact hs.ne' h

/-! ## C119: missing places -/

/-- C119 is false: a vector whose magnetic location is known but whose geographic place the library cannot give ends
in an `UnboundLocalError`. -/
theorem C119_unbound_refuted (lower : String → String)
    (hl : ∀ s ∈ ["magnetic", "geocentric", "geodetic"], lower s = s) (A : Aacgm) (hem : ℤ) (v : VD) (t : Tod)
    (n e z h pa pl : F) (ma ml : ℝ)
    (hv : OneGeo A hem v t n e z (some ma) (some ml) h none none pa pl) :
    updateVect lower A v (.one t) hem = .error .unboundLocal := by
  have hang : Vec.poleAngle none none pl pa = .ok none := by
    unfold Vec.poleAngle ltDiff
    cases pl <;> rfl
  rw [updateVect_one lower hl hv (by simp) (by simp) hang, if_pos rfl]

/-- C119 is false at the geographic pole too, where the angle of the triangle is undefined. -/
theorem C119_pole_refuted (lower : String → String)
    (hl : ∀ s ∈ ["magnetic", "geocentric", "geodetic"], lower s = s) (A : Aacgm) (hem : ℤ) (v : VD) (t : Tod)
    (n e z h : F) (ma ml dl pa pl : ℝ)
    (hv : OneGeo A hem v t n e z (some ma) (some ml) h (some 90) (some dl) (some pa) (some pl)) (hpa : 0 < pa)
    (hoff : ∀ k : ℤ, pl ≠ dl + 12 * k) :
    updateVect lower A v (.one t) hem = .error .unboundLocal := by
  have h' : Real.sin (hourAngle (pl - dl)) ≠ 0 := by
    rw [Ne, sin_hour_zero]; push Not; exact hoff
  have hang : Vec.poleAngle (some dl) (some 90) (some pl) (some pa) = .ok none := by
    rw [(poleAngle_off h').1]
    congr 1
    unfold triangleAngle
    simp only
    rw [if_pos]
    have h0 : (1 : ℝ) * (1 * Real.pi * (1 / 2) - radians 90) = 0 := by rw [radians_90]; ring
    rw [sign_pos hpa, SignType.coe_one, h0, Real.sin_zero, zero_mul]
  rw [updateVect_one lower hl hv (by simp) (by simp) hang, if_pos rfl]

/-- Without a magnetic place nothing is computed. -/
theorem updateVect_nan (lower : String → String) (A : Aacgm) (v w : VD) (p : Places) (ts : Arr Tod) (hem : ℤ)
    (hv : v.vectCoord ≠ "magnetic") (hb : bothPlaces lower A v ts = .ok (w, p))
    (hn : p.magLat.allNan ∨ p.magLt.allNan) : updateVect lower A v ts hem = .ok w := by
  unfold updateVect
  rw [if_pos hv, hb]
  simp only [bind, Except.bind]
  rw [if_pos hn]
  rfl

theorem Reads.allNan {a : Arr F} {m : ℕ} {f : ℕ → F} (hm : 0 < m) (h : Reads a m f) (hf : ∀ i, i < m → f i = none) :
    a.allNan = true := by
  rcases h with ⟨x, rfl, hx⟩ | rfl
  · rw [← hx 0 hm, hf 0 hm]; rfl
  · simp only [Arr.allNan, Arr.entries, List.all_eq_true, List.mem_map, List.mem_range]
    rintro e ⟨i, hi, rfl⟩
    rw [hf i hi]; rfl

/-- C119 as far as it holds: if the library knows none of the magnetic places, nothing is raised and the vectors keep
their components, magnitudes and coordinate system.  Missing: the geographic place or the angle unknown (refuted
above). -/
theorem C119_unknown_partial (lower : String → String)
    (hl : ∀ s ∈ ["magnetic", "geocentric", "geodetic"], lower s = s) (A : Aacgm) (hem : ℤ) (v : VD) (ts : Arr Tod) (m : ℕ)
    (hm : 0 < m) (las lts hs : ℕ → F) (tt : ℕ → Tod) (hla : Reads v.lat m las) (hlt : Reads v.lt m lts)
    (hh : Reads v.height m hs) (hts : Reads ts m tt) (hsh : v.lat.shape = v.lt.shape)
    (hd : v.datInd.shape = none ∨ v.datInd.shape = some m) (hc : v.locCoord = "geocentric" ∨ v.locCoord = "geodetic")
    (hv : v.vectCoord ≠ "magnetic")
    (hA : ∀ i, i < m → ∀ lon, A.g2a (decide (v.locCoord = "geocentric")) (las i) lon (hs i) (tt i) = (none, none)) :
    ∃ w, updateVect lower A v ts hem = .ok w ∧ w.vectN = v.vectN ∧ w.vectE = v.vectE ∧ w.vectZ = v.vectZ ∧
      w.vectMag = v.vectMag ∧ w.vectCoord = v.vectCoord ∧ w.locCoord = "magnetic" := by
  have hlm : v.locCoord ≠ "magnetic" := by rcases hc with h | h <;> rw [h] <;> decide
  have hconv : ∀ i, i < m → convLoc A true (decide (v.locCoord = "geocentric")) (las i) (lts i) (hs i) (tt i) = .ok (none, none) := by
    intro i hi
    cases hli : lts i with
    | none => simp [convLoc, liftF, bind, Except.bind, pure, Except.pure, hA i hi]
    | some s =>
      obtain ⟨g, g1, -⟩ := solar_glon s (tt i)
      simp [convLoc, liftF, g1, bind, Except.bind, Except.map, pure, Except.pure, hA i hi]
  obtain ⟨la', lt', h', u1, u2, -⟩ := updateLoc_conv lower A v ts "magnetic" m hm las lts hs tt hla hlt hh hts
    hsh hd (by rw [hl _ (by simp)]; exact hlm.symm) true (decide (v.locCoord = "geocentric"))
    (by rw [hl _ (by simp)]; rfl) (by rw [if_pos rfl]) (fun _ => (none, none)) hconv
  refine ⟨_, updateVect_nan lower A v { v with lat := la', lt := lt', height := h', locCoord := "magnetic" }
    { geoLt := v.lt, geoLat := v.lat, magLt := lt', magLat := la' } ts hem hv ?_
    (.inl (u2.allNan hm fun _ _ => rfl)), rfl, rfl, rfl, rfl, rfl, rfl⟩
  unfold bothPlaces
  rw [if_neg hlm, u1]
  rfl

/-! ## C120: what else changes -/

theorem growLoc_rest {v w : VD} {ts : Arr Tod} (h : growLoc v ts = .ok w) :
    w = { v with lat := w.lat, lt := w.lt, height := w.height } := by
  unfold growLoc at h
  split at h
  · cases h; rfl
  · cases h; rfl
  · cases h; rfl
  · split at h
    · cases h; rfl
    · cases h

theorem spread_spread {α : Type*} (d : Arr ℤ) (x : Arr α) : spread d (spread d x) = spread d x := by
  cases x <;> cases d <;> rfl

theorem updateLoc_rest {lower : String → String} {A : Aacgm} {v w : VD} {ts : Arr Tod} {coord : String}
    (h : updateLoc lower A v ts coord = .ok w) :
    w = { v with lat := w.lat, lt := w.lt, height := w.height, locCoord := w.locCoord } ∧
    (lower coord ≠ v.locCoord → w.locCoord = coord ∧ spread v.datInd w.lat = w.lat ∧ spread v.datInd w.lt = w.lt) := by
  unfold updateLoc at h
  split at h
  next hc =>
    simp only [bind, Except.bind] at h
    cases hg : growLoc v ts with
    | error e => rw [hg] at h; cases h
    | ok g =>
      rw [hg] at h
      have hr := growLoc_rest hg
      have hd : g.datInd = v.datInd := by rw [hr]
      simp only [convAll, bind, Except.bind] at h
      split at h
      · cases h
      · split at h
        · cases h
        · split at h
          · cases h
          · split at h
            · cases h
            · cases h
              refine ⟨?_, fun _ => ⟨rfl, ?_, ?_⟩⟩
              · rw [hr]
              · rw [← hd]; exact spread_spread _ _
              · rw [← hd]; exact spread_spread _ _
  next hc =>
    cases h
    exact ⟨rfl, fun h => absurd h hc⟩

/-- What `update_vect_coords_to_mag` does, step by step: both places, then nothing or new components. -/
theorem updateVect_steps {lower : String → String} {A : Aacgm} {v w : VD} {ts : Arr Tod} {hem : ℤ}
    (h : updateVect lower A v ts hem = .ok w) (hv : v.vectCoord ≠ "magnetic") :
    ∃ u p, bothPlaces lower A v ts = .ok (u, p) ∧
      ((w = u ∧ (p.magLat.allNan ∨ p.magLt.allNan)) ∨
        (w = { u with vectN := w.vectN, vectE := w.vectE, vectZ := w.vectZ, vectMag := w.vectMag, vectCoord := "magnetic" } ∧
          magArr w.vectN w.vectE w.vectZ = .ok w.vectMag ∧ ¬ (p.magLat.allNan ∨ p.magLt.allNan))) := by
  unfold updateVect at h
  rw [if_pos hv] at h
  cases hb : bothPlaces lower A v ts with
  | error e => rw [hb] at h; cases h
  | ok up =>
    obtain ⟨u, p⟩ := up
    refine ⟨u, p, rfl, ?_⟩
    rw [hb] at h
    simp only [bind, Except.bind] at h
    split at h
    next hn => cases h; exact .inl ⟨rfl, hn⟩
    next hn =>
      refine .inr ?_
      split at h
      · cases h
      · split at h
        · cases h
        next o _ =>
          simp only [setVectMag, bind, Except.bind] at h
          split at h
          · cases h
          next s hs =>
            rw [if_pos (show (Arr.one (none : F)).allNan = true from rfl)] at h
            cases h
            exact ⟨rfl, hs, hn⟩

/-- C120: vectors that are magnetic already are left alone. -/
theorem C120_magnetic (lower : String → String) (A : Aacgm) (v : VD) (ts : Arr Tod) (hem : ℤ)
    (hv : v.vectCoord = "magnetic") : updateVect lower A v ts hem = .ok v := by
  unfold updateVect
  rw [if_neg (by simpa using hv)]

/-- C120: otherwise the location afterwards is magnetic.  A magnetic location is the one that the object had, spread
over the data indices as every assignment does; for a geographic one it is that of `update_loc_coords`.  Of the other
attributes only the height, the vector and its system can change. -/
theorem C120_location (lower : String → String) (hl : lower "magnetic" = "magnetic") (A : Aacgm) (v w : VD) (ts : Arr Tod)
    (hem : ℤ) (h : updateVect lower A v ts hem = .ok w) (hv : v.vectCoord ≠ "magnetic") :
    w.locCoord = "magnetic" ∧
    (v.locCoord = "magnetic" → w.lat = spread v.datInd v.lat ∧ w.lt = spread v.datInd v.lt ∧
      ∃ u, updateLoc lower A v ts v.vectCoord = .ok u ∧ w.height = u.height) ∧
    (v.locCoord ≠ "magnetic" → ∃ u, updateLoc lower A v ts "magnetic" = .ok u ∧ w.lat = u.lat ∧ w.lt = u.lt ∧
      w.height = u.height) ∧
    w = { v with lat := w.lat, lt := w.lt, height := w.height, locCoord := w.locCoord, vectN := w.vectN, vectE := w.vectE
                 vectZ := w.vectZ, vectMag := w.vectMag, vectCoord := w.vectCoord } := by
  obtain ⟨u, p, hb, hw⟩ := updateVect_steps h hv
  have hu : u.locCoord = "magnetic" ∧
      (v.locCoord = "magnetic" → u.lat = spread v.datInd v.lat ∧ u.lt = spread v.datInd v.lt ∧
        ∃ u', updateLoc lower A v ts v.vectCoord = .ok u' ∧ u.height = u'.height) ∧
      (v.locCoord ≠ "magnetic" → ∃ u', updateLoc lower A v ts "magnetic" = .ok u' ∧ u.lat = u'.lat ∧ u.lt = u'.lt ∧
        u.height = u'.height) ∧
      u = { v with lat := u.lat, lt := u.lt, height := u.height, locCoord := u.locCoord } := by
    unfold bothPlaces at hb
    split at hb
    next hloc =>
      cases hup : updateLoc lower A v ts v.vectCoord with
      | error e => rw [hup] at hb; cases hb
      | ok x =>
        rw [hup] at hb
        have hx := (updateLoc_rest hup).1
        have hd : x.datInd = v.datInd := by rw [hx]
        simp only [bind, Except.bind, pure, Except.pure, Except.ok.injEq, Prod.mk.injEq] at hb
        obtain ⟨rfl, rfl⟩ := hb
        refine ⟨rfl, fun _ => ⟨by rw [← hd], by rw [← hd], _, rfl, rfl⟩, fun hc => absurd hloc hc, ?_⟩
        rw [hx]
    next hloc =>
      cases hup : updateLoc lower A v ts "magnetic" with
      | error e => rw [hup] at hb; cases hb
      | ok x =>
        rw [hup] at hb
        have hx := updateLoc_rest hup
        simp only [bind, Except.bind, pure, Except.pure, Except.ok.injEq, Prod.mk.injEq] at hb
        obtain ⟨rfl, rfl⟩ := hb
        exact ⟨(hx.2 (by rw [hl]; exact fun hc => hloc hc.symm)).1, fun hc => absurd hc hloc, fun _ => ⟨_, rfl, rfl, rfl, rfl⟩, hx.1⟩
  obtain ⟨h1, h2, h3, h4⟩ := hu
  rcases hw with ⟨rfl, -⟩ | ⟨hw, -⟩
  · refine ⟨h1, h2, h3, ?_⟩
    rw [h4]
  · have e1 : w.locCoord = u.locCoord := by rw [hw]
    have e2 : w.lat = u.lat := by rw [hw]
    have e3 : w.lt = u.lt := by rw [hw]
    have e4 : w.height = u.height := by rw [hw]
    refine ⟨by rw [e1]; exact h1, fun hc => by rw [e2, e3, e4]; exact h2 hc, fun hc => by rw [e2, e3, e4]; exact h3 hc, ?_⟩
    rw [hw, h4]

/-- C120: afterwards the vector is magnetic, with the magnitude that belongs to its components, or its components,
magnitude and system are the old ones and no magnetic location is known. -/
theorem C120_all_or_nothing (lower : String → String) (A : Aacgm) (v w : VD)
    (ts : Arr Tod) (hem : ℤ) (h : updateVect lower A v ts hem = .ok w) (hv : v.vectCoord ≠ "magnetic") :
    (w.vectCoord = "magnetic" ∧ magArr w.vectN w.vectE w.vectZ = .ok w.vectMag) ∨
    ((w.vectN, w.vectE, w.vectZ, w.vectMag, w.vectCoord) = (v.vectN, v.vectE, v.vectZ, v.vectMag, v.vectCoord) ∧
      (w.lat.allNan ∨ w.lt.allNan)) := by
  obtain ⟨u, p, hb, hw⟩ := updateVect_steps h hv
  rcases hw with ⟨rfl, hn⟩ | ⟨hw, hmag, -⟩
  · right
    have hspread : ∀ (d : Arr ℤ) (x : Arr F), x.allNan = true → (spread d x).allNan = true := by
      intro d x hx
      cases x with
      | many l => exact hx
      | one a =>
        cases d with
        | one k => exact hx
        | many l =>
          cases a with
          | some y => cases hx
          | none => simp [spread, Arr.full, Arr.allNan, Arr.entries]
    unfold bothPlaces at hb
    split at hb
    next hloc =>
      cases hup : updateLoc lower A v ts v.vectCoord with
      | error e => rw [hup] at hb; cases hb
      | ok x =>
        rw [hup] at hb
        have hx := (updateLoc_rest hup).1
        simp only [bind, Except.bind, pure, Except.pure, Except.ok.injEq, Prod.mk.injEq] at hb
        obtain ⟨rfl, rfl⟩ := hb
        exact ⟨by rw [hx], hn.imp (hspread _ _) (hspread _ _)⟩
    next hloc =>
      cases hup : updateLoc lower A v ts "magnetic" with
      | error e => rw [hup] at hb; cases hb
      | ok x =>
        rw [hup] at hb
        have hx := (updateLoc_rest hup).1
        simp only [bind, Except.bind, pure, Except.pure, Except.ok.injEq, Prod.mk.injEq] at hb
        obtain ⟨rfl, rfl⟩ := hb
        exact ⟨by rw [hx], hn⟩
  · exact .inl ⟨by rw [hw], hmag⟩

/-! ## C121: the whole of `set_ocb` for geographic vectors -/

/-- C121: `set_ocb` for vectors that are not magnetic is `set_ocb` for the result of `update_vect_coords_to_mag`. -/
theorem C121_steps (lower : String → String) (A : Aacgm) (b : Bnd) (f : Option (F → F → F → F)) (v w : VD) (ts : Arr Tod)
    (hts : timesOf b v = .ok ts) (hv : v.vectCoord ≠ "magnetic") (h : updateVect lower A v ts b.hem = .ok w)
    (hl : lower "magnetic" = "magnetic") (hw : w.vectCoord = "magnetic") (conv : VD → Arr Tod → ℤ → Except PyErr VD) :
    setOcb (updateVect lower A) b f v = setOcb conv b f w := by
  have hi : w.ocbInd = v.ocbInd := by rw [(C120_location lower hl A v w ts b.hem h hv).2.2.2]
  have ht : timesOf b w = .ok ts := by
    rw [← hts]
    unfold timesOf
    rw [hi]
  unfold setOcb
  rw [hts, ht]
  simp only [bind, Except.bind]
  rw [if_pos hv, h, if_neg (by simpa using hw)]

/-- The boundary coordinates of the vectors are known, or `normal_coord` finds them: for one vector and one index, or
for an array of vectors with an array of indices. -/
inductive Finds (b : Bnd) (v : VD) (m : ℕ) (hs : ℕ → F) (zs : ℕ → Pt) : Prop
  | known (h : Known v m zs)
  | single (k d : ℤ) (f g : ℝ) (a l h : F) (one : m = 1) (missing : Gap v) (ind : v.ocbInd = .one k) (dat : v.datInd = .one d)
      (lat : v.lat = .one a) (lt : v.lt = .one l) (height : v.height = .one h)
      (out : b.normal k (.one (some (zs 0).da)) (.one (some (zs 0).dl)) "magnetic" (.one h) =
        .ok (.one (some (zs 0).da), .one (some f), .one (some g), .one (some (zs 0).rc)))
  | each (f g : ℕ → ℝ) (f0 g0 h0 : ℕ → F) (missing : Gap v)
      (ind : v.ocbInd = .many ((List.range m).map fun i => (zs i).k)) (dat : v.datInd.shape = some m)
      (hla : v.ocbLat = .many ((List.range m).map f0)) (hml : v.ocbMlt = .many ((List.range m).map g0))
      (hrc : v.rCorr = .many ((List.range m).map h0))
      (out : ∀ i, i < m → ∃ lat', b.normal (zs i).k (.one (some (zs i).da)) (.one (some (zs i).dl)) "magnetic" (.one (hs i)) =
        .ok (lat', .one (some (f i)), .one (some (g i)), .one (some (zs i).rc)))

/-- The component of a geographic vector towards the magnetic pole. -/
noncomputable def GeoIn.poleward (y : GeoIn) : ℝ :=
  towards (place y.da y.dl) (place y.plat (y.plon / 15 + utHours y.t)) (horiz y.da y.dl y.n y.e)

/-- The component to the right of that direction. -/
noncomputable def GeoIn.rightward (y : GeoIn) : ℝ :=
  rightOf (place y.da y.dl) (place y.plat (y.plon / 15 + utHours y.t)) (horiz y.da y.dl y.n y.e)

theorem Reads.many_of {α : Type*} {a : Arr α} {m : ℕ} {f : ℕ → α} (h : Reads a m f) (hs : a.shape ≠ none) :
    a = .many ((List.range m).map f) := by
  rcases h with ⟨x, rfl, -⟩ | h
  · exact absurd rfl hs
  · exact h

theorem spread_many {α : Type*} {d : Arr ℤ} {x : Arr α} (h : d.shape ≠ none) : (spread d x).shape ≠ none := by
  cases d with
  | one k => exact absurd rfl h
  | many l => cases x <;> simp [spread, Arr.full, Arr.shape]

/-- The magnetic location of the vectors after the conversion, and their heights. -/
theorem updateVect_loc (lower : String → String) (hl : ∀ s ∈ ["magnetic", "geocentric", "geodetic"], lower s = s)
    (A : Aacgm) (hem : ℤ) (v w : VD) (ts : Arr Tod) (m : ℕ) (hm : 0 < m) (ys : ℕ → GeoIn) (h : HoldsGeo A hem v ts m ys)
    (hw : updateVect lower A v ts hem = .ok w) (ma ml : ℕ → ℝ)
    (hgeo : v.locCoord = v.vectCoord → ∀ i, i < m → ∀ lon, SolarTime lon (ys i).t (ys i).dl →
      A.g2a (decide (v.vectCoord = "geocentric")) (some (ys i).da) (some lon) (ys i).h (ys i).t = (some (ma i), some (ml i)))
    (hmag : v.locCoord = "magnetic" → (Reads v.lat m fun i => some (ma i)) ∧ Reads v.lt m fun i => some (ml i)) :
    (Reads w.lat m fun i => some (ma i)) ∧ (Reads w.lt m fun i => some (ml i)) ∧ (Reads w.height m fun i => (ys i).h) ∧
    (ts.shape ≠ none → w.height.shape ≠ none) ∧
    (v.datInd.shape ≠ none → w.lat.shape ≠ none ∧ w.lt.shape ≠ none) ∧
    (∀ a l, v.lat = .one a → v.lt = .one l → v.datInd.shape = none → v.height.shape = none → ts.shape = none →
      w.lat.shape = none ∧ w.lt.shape = none ∧ w.height = v.height) ∧
    (v.locCoord ≠ "magnetic" → ts.shape ≠ none → w.lat.shape ≠ none) := by
  have hvm : v.vectCoord ≠ "magnetic" := by rcases h.coord with h | h <;> rw [h] <;> decide
  obtain ⟨-, c2, c3, c4⟩ := C120_location lower (hl _ (by simp)) A v w ts hem hw hvm
  set geoc := decide (v.vectCoord = "geocentric") with hgeoc
  rcases h.place with ⟨hloc, hla, hlt, -⟩ | ⟨hloc, la, lt, hla, hlt, -, hplace⟩
  · have hne : lower "magnetic" ≠ v.locCoord := by
      rw [hl _ (by simp), hloc]; exact hvm.symm
    obtain ⟨u, hu, e1, e2, e3⟩ := c3 (by rw [hloc]; exact hvm)
    have hconv : ∀ i, i < m → convLoc A true geoc (some (ys i).da) (some (ys i).dl) (ys i).h (ys i).t =
        .ok (some (ma i), some (ml i)) := by
      intro i hi
      obtain ⟨g, g1, g2⟩ := solar_glon (ys i).dl (ys i).t
      simp [convLoc, liftF, g1, bind, Except.bind, Except.map, pure, Except.pure, hgeo hloc i hi g g2]
    obtain ⟨la', lt', h', u1, u2, u3, u4, u5, u6, u7⟩ := updateLoc_conv lower A v ts "magnetic" m hm _ _ _ _ hla hlt h.h h.t
      h.shape h.datInd hne true geoc (by rw [hl _ (by simp)]; rfl) (by rw [hloc, if_pos rfl])
      (fun i => (some (ma i), some (ml i))) hconv
    have hux := updateLoc_rest hu
    have hs := hux.2 hne
    rw [hu] at u1
    have hu' := Except.ok.inj u1
    rw [e1, e2, e3]
    refine ⟨by rw [hu']; exact u2, by rw [hu']; exact u3, by rw [hu']; exact u4,
      fun ht => by rw [hu']; exact u6 ht (h.manyTimes ht), fun hd => ⟨?_, ?_⟩, ?_,
      fun _ ht => by rw [hu']; exact u7 ht⟩
    · rw [← hs.2.1]; exact spread_many hd
    · rw [← hs.2.2]; exact spread_many hd
    · intro a l ha hl' hd hh ht
      refine ⟨?_, ?_, by rw [hu']; exact u5 ht⟩
      all_goals
        unfold updateLoc at hu
        rw [if_pos hne] at hu
        simp only [bind, Except.bind] at hu
        obtain ⟨t, rfl⟩ : ∃ t, ts = .one t := by
          cases ts with
          | one t => exact ⟨t, rfl⟩
          | many l => cases ht
        obtain ⟨x, hx⟩ : ∃ x, v.height = .one x := by
          cases hvh : v.height with
          | one t => exact ⟨t, rfl⟩
          | many l => rw [hvh] at hh; cases hh
        obtain ⟨d, hd'⟩ : ∃ x, v.datInd = .one x := by
          cases hvh : v.datInd with
          | one t => exact ⟨t, rfl⟩
          | many l => rw [hvh] at hd; cases hd
        have hg : growLoc v (.one t) = .ok v := by unfold growLoc; rw [ha, hl']; rfl
        rw [hg] at hu
        simp only [convAll, ha, hl', hx, hd', bind, Except.bind, Arr.zip, Arr.mapE] at hu
        split at hu
        · cases hu
        next o ho =>
          cases hu
          simp only [Except.map] at ho
          split at ho
          · cases ho
          · cases ho; rfl
  · have hvl : lower v.vectCoord = v.vectCoord := by
      rcases h.coord with h | h <;> rw [h] <;> exact hl _ (by simp)
    have hne : lower v.vectCoord ≠ v.locCoord := by rw [hvl, hloc]; exact hvm
    obtain ⟨e1, e2, u, hu, e3⟩ := c2 hloc
    obtain ⟨r1, r2⟩ := hmag hloc
    have hconv : ∀ i, ∃ s : F × F, i < m → convLoc A false geoc (la i) (lt i) (ys i).h (ys i).t = .ok s := by
      intro i
      by_cases hi : i < m
      · obtain ⟨lon, l1, -⟩ := hplace i hi
        obtain ⟨s, s1, -⟩ := solar_slt lon (ys i).t
        refine ⟨(some (ys i).da, some s), fun _ => ?_⟩
        unfold convLoc
        rw [if_neg (by simp)]
        simp only [bind, Except.bind]
        rw [l1]
        simp [liftF, s1, Except.map, pure, Except.pure]
      · exact ⟨(none, none), fun h => absurd h hi⟩
    choose s hs using hconv
    obtain ⟨la', lt', h', u1, -, -, u4, u5, u6, -⟩ := updateLoc_conv lower A v ts v.vectCoord m hm _ _ _ _ hla hlt h.h h.t
      h.shape h.datInd hne false geoc (by rw [hvl]; simp [hvm]) (by rw [hvl, if_neg (by simp)]) s hs
    rw [hu] at u1
    have hu' := Except.ok.inj u1
    rw [e1, e2, e3]
    refine ⟨r1.spread _ h.datInd, r2.spread _ h.datInd, by rw [hu']; exact u4,
      fun ht => by rw [hu']; exact u6 ht (h.manyTimes ht), fun hd => ⟨spread_many hd, spread_many hd⟩, ?_,
      fun hc => absurd hloc hc⟩
    intro a l ha hl' hd hh ht
    obtain ⟨d, hd'⟩ : ∃ x, v.datInd = .one x := by
      cases hvh : v.datInd with
      | one t => exact ⟨t, rfl⟩
      | many l => rw [hvh] at hd; cases hd
    rw [ha, hl', hd']
    exact ⟨rfl, rfl, by rw [hu']; exact u5 ht⟩

/-- C121 as far as it holds: for a northern boundary, geographic vectors whose magnetic pole is in the north end up
with the component towards the centre of their boundary circle, and the one to its right, of the vector that has the
components of C118 at the magnetic location.  For the times that `set_ocb` picks: that of the boundary's present record
for a single index (see C72), those of the indices otherwise.  Missing: what C118 lacks, a single location with
several indices and an array of vectors with a single index (both refuted below). -/
theorem C121_northern_partial (lower : String → String)
    (hl : ∀ s ∈ ["magnetic", "geocentric", "geodetic"], lower s = s) (A : Aacgm) (b : Bnd) (v : VD) (ts : Arr Tod) (m : ℕ)
    (hm : 0 < m) (ys : ℕ → GeoIn) (h : HoldsGeo A b.hem v ts m ys) (hg : ∀ i, i < m → (ys i).Good)
    (hN : ∀ i, i < m → 0 < (ys i).plat) (hts : timesOf b v = .ok ts) (zs : ℕ → Pt) (hz : ∀ i, i < m → (zs i).Good b)
    (hv : ∀ i, i < m → (zs i).n = (ys i).poleward ∧ (zs i).e = (ys i).rightward ∧ (zs i).z = (ys i).z)
    (hgeo : v.locCoord = v.vectCoord → ∀ i, i < m → ∀ lon, SolarTime lon (ys i).t (ys i).dl →
      A.g2a (decide (v.vectCoord = "geocentric")) (some (ys i).da) (some lon) (ys i).h (ys i).t =
        (some (zs i).da, some (zs i).dl))
    (hmag : v.locCoord = "magnetic" → (Reads v.lat m fun i => some (zs i).da) ∧ Reads v.lt m fun i => some (zs i).dl)
    (hind : Reads v.ocbInd m fun i => (zs i).k) (hr : InRange b m zs) (hfind : Finds b v m (fun i => (ys i).h) zs)
    (hs : (∀ i, i < m → 0 < (zs i).rho) ∨ m = 1) (hf : v.scaleFunc = none) :
    ∃ w rec', setOcb (updateVect lower A) b none v = .ok (w, rec') ∧
      (Reads w.ocbN m fun i =>
        some (towards (place (zs i).da (zs i).dl) (place (90 - (zs i).rho) ((zs i).phi / 15))
          (horiz (zs i).da (zs i).dl (ys i).poleward (ys i).rightward))) ∧
      (Reads w.ocbE m fun i =>
        some (rightOf (place (zs i).da (zs i).dl) (place (90 - (zs i).rho) ((zs i).phi / 15))
          (horiz (zs i).da (zs i).dl (ys i).poleward (ys i).rightward))) ∧
      (Reads w.ocbZ m fun i => some (ys i).z) ∧
      (Reads w.ocbMag m fun i => some (√((ys i).n ^ 2 + (ys i).e ^ 2 + (ys i).z ^ 2))) := by
  have hvm : v.vectCoord ≠ "magnetic" := by rcases h.coord with h | h <;> rw [h] <;> decide
  obtain ⟨x, x1, x2, x3, x4, x5, x6, x7⟩ := C118_northern_partial lower hl A b.hem v ts m hm ys h hg hN
  obtain ⟨l1, l2, l3, l4, l5, l6, -⟩ := updateVect_loc lower hl A b.hem v x ts m hm ys h x1 _ _ hgeo hmag
  have hfr := (C120_location lower (hl _ (by simp)) A v x ts b.hem x1 hvm).2.2.2
  have f1 : x.datInd = v.datInd := by rw [hfr]
  have f2 : x.ocbInd = v.ocbInd := by rw [hfr]
  have f3 : x.ocbLat = v.ocbLat := by rw [hfr]
  have f4 : x.ocbMlt = v.ocbMlt := by rw [hfr]
  have f5 : x.rCorr = v.rCorr := by rw [hfr]
  have f6 : x.scaleFunc = v.scaleFunc := by rw [hfr]
  have hhold : Holds x m zs :=
    ⟨by rw [f1]; exact h.datInd, by rw [f2]; exact hind, l1, l2, x4.congr fun i hi => by rw [(hv i hi).1]; rfl,
      x5.congr fun i hi => by rw [(hv i hi).2.1]; rfl, x6.congr fun i hi => by rw [(hv i hi).2.2], x3, x2⟩
  have hloc : Located b x m zs := by
    cases hfind with
    | known hk => exact .known ⟨by rw [f3]; exact hk.1, by rw [f4]; exact hk.2, by rw [f5]; exact hk.3⟩
    | single k d f g a l hh one missing ind dat lat lt height out =>
      subst one
      have ht : ts.shape = none := by
        unfold timesOf at hts
        rw [ind] at hts
        simp only [Except.map] at hts
        split at hts
        · cases hts
        · cases hts; rfl
      obtain ⟨s1, s2, s3⟩ := l6 a l lat lt (by rw [dat]; rfl) (by rw [height]; rfl) ht
      have e1 : x.lat = .one (some (zs 0).da) := by
        rcases l1 with ⟨y, hy, hy'⟩ | hy
        · rw [hy, ← hy' 0 (by omega)]
        · rw [hy] at s1; cases s1
      have e2 : x.lt = .one (some (zs 0).dl) := by
        rcases l2 with ⟨y, hy, hy'⟩ | hy
        · rw [hy, ← hy' 0 (by omega)]
        · rw [hy] at s2; cases s2
      refine .single k (.one (some f)) (.one (some g)) (.one (some (zs 0).rc)) (fun _ => f) (fun _ => g) ?_ (by rw [f2]; exact ind) ?_
        (.inl ⟨_, rfl, fun _ _ => rfl⟩) (.inl ⟨_, rfl, fun _ _ => rfl⟩)
        (.inl ⟨_, rfl, fun i hi => by rw [show i = 0 by omega]⟩)
      · unfold Gap at missing ⊢
        rw [f3, f4, f5]; exact missing
      · rw [e1, e2, s3, height]; exact out
    | each f g f0 g0 h0 missing ind dat hla hml hrc out =>
      have ht : ts.shape ≠ none := by
        unfold timesOf at hts
        rw [ind] at hts
        simp only [idxArr, Arr.mapE, Except.map] at hts
        split at hts
        · cases hts
        · cases hts; simp [Arr.shape]
      obtain ⟨s1, s2⟩ := l5 (by rw [dat]; simp)
      refine .each _ f g f0 g0 h0 ?_ (by rw [f2]; exact ind) (by rw [f1]; exact dat) (l1.many_of s1) (l2.many_of s2)
        (l3.many_of (l4 ht)) (by rw [f3]; exact hla) (by rw [f4]; exact hml) (by rw [f5]; exact hrc) out
      unfold Gap at missing ⊢
      rw [f3, f4, f5]; exact missing
  obtain ⟨w, rec', u, w1, w2, w3, w4, w5, -⟩ := C69_geometry (updateVect lower A) b x m zs hm hhold hz hr hloc
    (hs.imp id .inr) (by rw [f6]; exact hf)
  refine ⟨w, rec', ?_, w2.congr fun i hi => ?_, w3.congr fun i hi => ?_, w4.congr fun i hi => ?_, w5.congr fun i hi => ?_⟩
  · rw [C121_steps lower A b none v x ts hts hvm x1 (hl _ (by simp)) x2 (updateVect lower A)]; exact w1
  · rw [(hv i hi).1, (hv i hi).2.1]
  · rw [(hv i hi).1, (hv i hi).2.1]
  · rw [(hv i hi).2.2]
  · obtain ⟨c, c1, c2⟩ := x4.mag x5 x6
    rcases C120_all_or_nothing lower A v x ts b.hem x1 hvm with ⟨-, a2⟩ | ⟨a1, -⟩
    · rw [c1] at a2
      rw [Except.ok.inj a2] at c2
      have hu := c2.unique x7 i hi
      rw [← hu, (hv i hi).1, (hv i hi).2.1, (hv i hi).2.2]
      rfl
    · simp only [Prod.mk.injEq] at a1
      exact absurd (a1.2.2.2.2.symm.trans x2) hvm

/-- C121 is false for one geographic place with several boundary indices: `update_loc_coords` makes an array of its
magnetic locations, `normal_coord` is called for all of them with every index, and the result does not fit into one
entry.  `normal_coord` answers arrays with arrays of the same length. -/
theorem C121_indices_refuted (lower : String → String)
    (hl : ∀ s ∈ ["magnetic", "geocentric", "geodetic"], lower s = s) (A : Aacgm) (b : Bnd) (v : VD) (ts : Arr Tod) (m : ℕ)
    (hm : 1 < m) (ys : ℕ → GeoIn) (h : HoldsGeo A b.hem v ts m ys) (hg : ∀ i, i < m → (ys i).Good)
    (hts : timesOf b v = .ok ts) (hloc : v.locCoord = v.vectCoord) (ma ml : ℕ → ℝ)
    (hgeo : ∀ i, i < m → ∀ lon, SolarTime lon (ys i).t (ys i).dl →
      A.g2a (decide (v.vectCoord = "geocentric")) (some (ys i).da) (some lon) (ys i).h (ys i).t = (some (ma i), some (ml i)))
    (hind : v.ocbInd.shape = some m) (hdat : v.datInd.shape = none) (hgap : Gap v)
    (hnormal : ∀ k la lt c ht o, b.normal k la lt c ht = .ok o → o.2.1.shape = la.shape)
    (f : Option (F → F → F → F)) : ¬ ∃ r, setOcb (updateVect lower A) b f v = .ok r := by
  have hvm : v.vectCoord ≠ "magnetic" := by rcases h.coord with h | h <;> rw [h] <;> decide
  have hm0 : 0 < m := by omega
  obtain ⟨x, -, x1, x2, -⟩ := updateVect_out lower hl A b.hem v ts m hm0 ys h hg
  obtain ⟨l1, -, -, -, -, -, l7⟩ := updateVect_loc lower hl A b.hem v x ts m hm0 ys h x1 ma ml (fun _ => hgeo)
    (fun hc => absurd (hloc.symm.trans hc) hvm)
  have hfr := (C120_location lower (hl _ (by simp)) A v x ts b.hem x1 hvm).2.2.2
  have f1 : x.datInd = v.datInd := by rw [hfr]
  have f2 : x.ocbInd = v.ocbInd := by rw [hfr]
  have f3 : x.ocbLat = v.ocbLat := by rw [hfr]
  have f4 : x.ocbMlt = v.ocbMlt := by rw [hfr]
  have f5 : x.rCorr = v.rCorr := by rw [hfr]
  have hts' : ts.shape ≠ none := by
    unfold timesOf at hts
    cases hi : v.ocbInd with
    | one k => rw [hi] at hind; cases hind
    | many l =>
      rw [hi] at hts
      simp only [idxArr, Arr.mapE, Except.map] at hts
      split at hts
      · cases hts
      · cases hts; simp [Arr.shape]
  have hlat : x.lat.shape = some m := by
    rw [l1.many_of (l7 (by rw [hloc]; exact hvm) hts')]
    simp [Arr.shape]
  rintro ⟨r, hr⟩
  rw [C121_steps lower A b f v x ts hts hvm x1 (hl _ (by simp)) x2 (updateVect lower A)] at hr
  unfold setOcb at hr
  have ht : timesOf b x = .ok ts := by
    rw [← hts]
    unfold timesOf
    rw [f2]
  rw [ht] at hr
  simp only [bind, Except.bind] at hr
  rw [if_neg (by simpa using x2)] at hr
  have hgap' : coordsMissing x = true := by
    rw [gap_iff]
    unfold Gap at hgap ⊢
    rw [f3, f4, f5]; exact hgap
  cases hi : v.ocbInd with
  | one k => rw [hi] at hind; cases hind
  | many ks =>
    cases ks with
    | nil => rw [hi] at hind; simp [Arr.shape] at hind; omega
    | cons k ks =>
      have hbad : ∀ y, normalLoop b x 0 (k :: ks) ≠ .ok y := by
        intro y hy
        rw [normalLoop] at hy
        simp only [bind, Except.bind] at hy
        rw [if_neg (by rw [f2, f1, hind, hdat]; simp)] at hy
        cases hn : b.normal k x.lat x.lt x.locCoord x.height with
        | error e => rw [hn] at hy; cases hy
        | ok o =>
          rw [hn] at hy
          simp only at hy
          have hs := hnormal _ _ _ _ _ _ hn
          rw [hlat] at hs
          have : single o.2.1 = .error .valueError := by
            cases ho : o.2.1 with
            | one a => rw [ho] at hs; cases hs
            | many l =>
              rw [ho] at hs
              simp [Arr.shape] at hs
              match l, hs with
              | [], hs => simp at hs; omega
              | [a], hs => simp at hs; omega
              | a :: a' :: l, hs => rfl
          rw [this] at hy
          cases hy
      simp only at hr
      cases hfc : fillCoords b x with
      | error e => rw [hfc] at hr; cases hr
      | ok z =>
        unfold fillCoords at hfc
        rw [if_pos hgap', f2, hi] at hfc
        simp only [bind, Except.bind] at hfc
        cases hn : normalLoop b x 0 (k :: ks) with
        | ok y => exact hbad y hn
        | error e => rw [hn] at hfc; cases hfc

/-- C121 is false for several geographic vectors with a single boundary index: all their heights are handed to the
library at once, which takes a single height. -/
theorem C121_heights_refuted (lower : String → String)
    (hl : ∀ s ∈ ["magnetic", "geocentric", "geodetic"], lower s = s) (A : Aacgm) (b : Bnd) (v : VD) (t : Tod) (m : ℕ)
    (hm : 1 < m) (las lts hs : ℕ → F) (hla : Reads v.lat m las) (hlt : Reads v.lt m lts)
    (hh : v.height = .many ((List.range m).map hs)) (hsh : v.lat.shape = v.lt.shape)
    (hd : v.datInd.shape = none ∨ v.datInd.shape = some m) (hloc : v.locCoord = "magnetic")
    (hv : v.vectCoord = "geocentric" ∨ v.vectCoord = "geodetic") (hknown : ∃ j, j < m ∧ las j ≠ none ∧ lts j ≠ none)
    (k : ℤ) (hind : v.ocbInd = .one k) (ht : pyIdx b.dtime b.recInd = .ok t) (f : Option (F → F → F → F)) :
    setOcb (updateVect lower A) b f v = .error .valueError := by
  have hvm : v.vectCoord ≠ "magnetic" := by rcases hv with h | h <;> rw [h] <;> decide
  have hm0 : 0 < m := by omega
  have hvl : lower v.vectCoord = v.vectCoord := by
    rcases hv with h | h <;> rw [h] <;> exact hl _ (by simp)
  have hne : lower v.vectCoord ≠ v.locCoord := by rw [hvl, hloc]; exact hvm
  set geoc := decide (v.vectCoord = "geocentric") with hgeoc
  have hconv : ∀ i, ∃ s : F × F, i < m → convLoc A false geoc (las i) (lts i) (hs i) t = .ok s := by
    intro i
    cases hlon : (A.a2g geoc (las i) (A.mlt2lon (lts i) t) (hs i) t).2 with
    | none =>
      refine ⟨((A.a2g geoc (las i) (A.mlt2lon (lts i) t) (hs i) t).1, none), fun _ => ?_⟩
      simp [convLoc, bind, Except.bind, hlon, liftF, pure, Except.pure]
    | some lon =>
      obtain ⟨s, s1, -⟩ := solar_slt lon t
      refine ⟨((A.a2g geoc (las i) (A.mlt2lon (lts i) t) (hs i) t).1, some s), fun _ => ?_⟩
      simp [convLoc, bind, Except.bind, hlon, liftF, pure, Except.pure, s1, Except.map]
  choose s hs' using hconv
  obtain ⟨la', lt', h', u1, -, -, -, u5, -⟩ := updateLoc_conv lower A v (.one t) v.vectCoord m hm0 _ _ hs (fun _ => t) hla hlt (.inr hh)
    (.inl ⟨t, rfl, fun _ _ => rfl⟩) hsh hd hne false geoc (by rw [hvl]; simp [hvm]) (by rw [hvl, if_neg (by simp)]) s hs'
  have hb : ∃ u p, bothPlaces lower A v (.one t) = .ok (u, p) ∧ u.height = v.height ∧ p.magLat = v.lat ∧ p.magLt = v.lt := by
    unfold bothPlaces
    rw [if_pos hloc, u1]
    exact ⟨_, _, rfl, u5 rfl, rfl, rfl⟩
  obtain ⟨u, p, b1, b2, b3, b4⟩ := hb
  have hpole : magPole A geoc b.hem u (.one t) = .error .valueError := by
    unfold magPole
    simp only [bind, Except.bind]
    rw [b2, hh]
    have : single (Arr.many ((List.range m).map hs)) = .error .valueError := by
      have hlen : ((List.range m).map hs).length = m := by simp
      match (List.range m).map hs, hlen with
      | [], hlen => simp at hlen; omega
      | [a], hlen => simp at hlen; omega
      | a :: a' :: l, hlen => rfl
    rw [this]
  obtain ⟨j, hj, j1, j2⟩ := hknown
  have hup : updateVect lower A v (.one t) b.hem = .error .valueError := by
    unfold updateVect
    rw [if_pos hvm, b1]
    simp only [bind, Except.bind]
    rw [if_neg (by rw [b3, b4, hla.known hj j1, hlt.known hj j2]; simp), ← hgeoc, hpole]
  unfold setOcb timesOf
  rw [hind]
  simp only [bind, Except.bind]
  rw [ht]
  simp only [Except.map]
  rw [if_pos hvm, hup]

/-! ## Examples -/

/-- Midnight. -/
def midnight : Tod := { hour := 0, minute := 0, second := 0, micro := 0 }

theorem ut_midnight : utHours midnight = 0 := by norm_num [utHours, midnight]

/-- A library that puts the magnetic poles at 80 degrees and longitude 0. -/
noncomputable def geoA : Aacgm :=
  { g2a := fun _ la _ _ _ => (la.map (· * 9 / 8), some 3)
    a2g := fun _ la lon _ _ => (la.map (· * 8 / 9), lon)
    mlt2lon := fun ml _ => ml.map (· * 15 + 30) }

/-- The two vectors of the example of C69 taken as geographic ones. -/
noncomputable def geoY (s : ℝ) (i : ℕ) : GeoIn :=
  { da := s * ((exPt i).da * 8 / 9), dl := (exPt i).dl + 2, n := (exPt i).n, e := (exPt i).e, z := (exPt i).z
    plat := s * 80, plon := 0, h := some 350, t := midnight }

theorem geoY_good (s : ℝ) (hs : s = 1 ∨ s = -1) (i : ℕ) (hi : i < 2) : (geoY s i).Good := by
  have h : i = 0 ∨ i = 1 := by omega
  refine ⟨?_, ?_, ?_, fun k hk => ?_, ?_⟩
  · rcases hs with rfl | rfl <;> rcases h with rfl | rfl <;> simp only [geoY, exPt] <;> rw [abs_lt] <;> norm_num
  · rcases hs with rfl | rfl <;> simp only [geoY] <;> rw [abs_lt] <;> norm_num
  · rcases hs with rfl | rfl <;> simp only [geoY] <;> norm_num
  · simp only [geoY, ut_midnight] at hk
    rcases h with rfl | rfl
    · exact not_twelfth (x := -(-5)) (by norm_num) (by norm_num) (-k) (by simp only [exPt] at hk; push_cast; linarith)
    · exact not_twelfth (x := -(-6)) (by norm_num) (by norm_num) (-k) (by simp only [exPt] at hk; push_cast; linarith)
  · rcases h with rfl | rfl <;> norm_num [geoY, exPt]

/-- The object with magnetic locations and geodetic components. -/
noncomputable def geoVD (s : ℝ) : VD :=
  { exVD with vectCoord := "geodetic", lat := .many ((List.range 2).map fun i => some (s * (exPt i).da)) }

theorem geoVD_holds (hem : ℤ) (s : ℝ) (h : (hem : ℝ) = s) :
    HoldsGeo geoA hem (geoVD s) (.many ((List.range 2).map fun _ => midnight)) 2 (geoY s) := by
  refine ⟨.inr rfl, .inr rfl, .inr rfl, .inr rfl, .inr rfl, .inr rfl, .inr rfl, rfl, fun h => by simp [Arr.shape] at h,
    fun _ => rfl, fun i hi => ?_, .inr ⟨rfl, _, _, .inr rfl, .inr rfl, ⟨0, by norm_num, by simp, by simp⟩, fun i hi => ?_⟩⟩
  · simp only [geoA, geoY, Option.map_some, h]
    norm_num
    ring
  · refine ⟨(exPt i).dl * 15 + 30, ?_, 0, ?_⟩
    · simp only [geoA, geoY, Option.map_some]
      norm_num
      ring
    · simp only [geoY, ut_midnight]
      push_cast
      ring

/-- The hypotheses of `C118_northern_partial` and `C118_southern_refuted` are met. -/
example : HoldsGeo geoA 1 (geoVD 1) (.many ((List.range 2).map fun _ => midnight)) 2 (geoY 1) ∧
    (∀ i, i < 2 → (geoY 1 i).Good) ∧ (∀ i, i < 2 → 0 < (geoY 1 i).plat) ∧
    HoldsGeo geoA (-1) (geoVD (-1)) (.many ((List.range 2).map fun _ => midnight)) 2 (geoY (-1)) ∧
    (∀ i, i < 2 → (geoY (-1) i).Good) ∧ (geoY (-1) 0).plat < 0 ∧ (geoY (-1) 0).e ≠ 0 :=
  ⟨geoVD_holds 1 1 (by norm_num), geoY_good 1 (.inl rfl), fun i hi => by norm_num [geoY],
    geoVD_holds (-1) (-1) (by norm_num), geoY_good (-1) (.inr rfl), by norm_num [geoY], by norm_num [geoY, exPt]⟩

theorem GeoIn.Good.keeps {y : GeoIn} (h : y.Good) (hN : 0 < y.plat) :
    y.poleward ^ 2 + y.rightward ^ 2 = y.n ^ 2 + y.e ^ 2 := by
  let g : GV := { da := y.da, dl := y.dl, pa := y.plat, pl := y.plon / 15 + utHours y.t, n := y.n, e := y.e, z := y.z
                  ma := none, ml := none }
  have hg : g.Good := ⟨h.lat, h.pole, h.pole0, h.off, h.vec⟩
  have h1 : y.poleward = g.north := (g.north_eq hN).symm
  have h2 : y.rightward = g.east := (g.east_eq hN).symm
  rw [h1, h2]
  exact hg.mag

/-- The same vectors with the components that `update_vect_coords_to_mag` gives them. -/
noncomputable def turnedPt (i : ℕ) : Pt := { exPt i with n := (geoY 1 i).poleward, e := (geoY 1 i).rightward }

/-- The hypotheses of `C121_northern_partial` are met, with known boundary coordinates. -/
example : timesOf (exBnd midnight) (geoVD 1) = .ok (.many ((List.range 2).map fun _ => midnight)) ∧
    (∀ i, i < 2 → (turnedPt i).Good (exBnd midnight)) ∧
    (∀ i, i < 2 → (turnedPt i).n = (geoY 1 i).poleward ∧ (turnedPt i).e = (geoY 1 i).rightward ∧
      (turnedPt i).z = (geoY 1 i).z) ∧ ((geoVD 1).locCoord ≠ (geoVD 1).vectCoord) ∧
    (Reads (geoVD 1).lat 2 fun i => some (turnedPt i).da) ∧ (Reads (geoVD 1).lt 2 fun i => some (turnedPt i).dl) ∧
    (Reads (geoVD 1).ocbInd 2 fun i => (turnedPt i).k) ∧ InRange (exBnd midnight) 2 turnedPt ∧
    Finds (exBnd midnight) (geoVD 1) 2 (fun i => (geoY 1 i).h) turnedPt ∧ (∀ i, i < 2 → 0 < (turnedPt i).rho) := by
  refine ⟨rfl, fun i hi => ?_, fun i hi => ⟨rfl, rfl, rfl⟩, by simp [geoVD, exVD], .inr ?_, .inr rfl, .inr rfl, ?_,
    .known ⟨⟨fun _ => 80, .inr rfl⟩, ⟨fun _ => 2, .inr rfl⟩, .inr rfl⟩, fun i hi => ?_⟩
  · obtain ⟨⟨a, b, c, d, e, f, g⟩, h, -⟩ := exPt_good midnight i hi
    refine ⟨⟨a, b, c, d, e, f, g⟩, h, ?_⟩
    rintro ⟨h1, h2⟩
    have hgood := geoY_good 1 (.inl rfl) i hi
    have := hgood.keeps (by norm_num [geoY])
    have h1' : (geoY 1 i).poleward = 0 := h1
    have h2' : (geoY 1 i).rightward = 0 := h2
    rw [h1', h2'] at this
    apply hgood.vec
    constructor <;> nlinarith [sq_nonneg (geoY 1 i).n, sq_nonneg (geoY 1 i).e]
  · simp only [geoVD, one_mul]
    rfl
  · exact ⟨⟨midnight, rfl⟩, (exRange midnight).index⟩
  · have hh : i = 0 ∨ i = 1 := by omega
    rcases hh with rfl | rfl <;> norm_num [turnedPt, exPt]

/-- A single vector with magnetic location and geodetic components. -/
noncomputable def oneVD (ma ml n e : ℝ) : VD :=
  { exVD with
    datInd := .one 0, ocbInd := .one 0, lat := .one (some ma), lt := .one (some ml), height := .one (some 350)
    vectN := .one (some n), vectE := .one (some e), vectZ := .one (some 0), vectCoord := "geodetic" }

/-- The hypotheses of `C118_meridian_refuted` are met: 85 degrees magnetic latitude, 75.6 degrees geographic. -/
example : ∃ dl pl, OneGeo geoA 1 (oneVD 85 22 3 4) midnight (some 3) (some 4) (some 0) (some 85) (some 22) (some 350)
      (some (85 * 8 / 9)) (some dl) (some 80) (some pl) ∧ SameHour pl dl ∧ (0 : ℝ) ≤ 85 * 8 / 9 ∧ (85 * 8 / 9 : ℝ) < 80 ∧
      (80 : ℝ) ≤ 90 ∧ (80 : ℝ) ≤ 85 := by
  obtain ⟨dl, d1, k, d2⟩ := solar_slt (22 * 15 + 30) midnight
  obtain ⟨pl, p1, j, p2⟩ := solar_slt 0 midnight
  refine ⟨dl, pl, ⟨.inr rfl, rfl, rfl, rfl, rfl, rfl, rfl, rfl, rfl, rfl, ?_, ?_, ?_⟩, ⟨j - k - 1, ?_⟩, by norm_num, by norm_num,
    by norm_num, by norm_num⟩
  · simp [geoA, oneVD, exVD, liftF, d1, Except.map]
  · simp [geoA]; norm_num
  · simp [geoA, liftF, p1, Except.map]
  · rw [p2, d2]; push_cast; ring

/-- The hypotheses of `C118_missing_refuted` are met: magnetic local time 11 h, geographic 13 h, the pole at 0 h. -/
example : ∃ (y : GV) (gl pa pl : F), TwoGeo geoA 1 { exVD with
        vectCoord := "geodetic", lat := .many [some 72, none], lt := .many [some 11, some 4]
        vectN := .many [some 3, some 1], vectE := .many [some 4, some 0], vectZ := .many [some 0, some 0] }
      midnight midnight y (some 350) (some 1) (some 0) (some 0) none (some 4) (some 350) gl pa pl ∧
    y.ma = some 72 ∧ y.ml = some 11 ∧ y.Good ∧ 0 < y.pa ∧ y.e ≠ 0 ∧ Ahead y.dl y.pl 11 ∧ Ahead 11 y.pl 13 := by
  obtain ⟨dl, d1, k, d2⟩ := solar_slt (11 * 15 + 30) midnight
  obtain ⟨gl, g1, -⟩ := solar_slt (4 * 15 + 30) midnight
  obtain ⟨pl, p1, j, p2⟩ := solar_slt 0 midnight
  rw [ut_midnight] at d2 p2
  refine ⟨{ da := 64, dl := dl, pa := 80, pl := pl, n := 3, e := 4, z := 0, ma := some 72, ml := some 11 }, some gl, some 80,
    some pl, ⟨.inr rfl, rfl, ⟨0, 1, rfl⟩, rfl, rfl, rfl, rfl, rfl, rfl, ?_, ?_, ?_, ?_⟩, rfl, rfl, ⟨?_, ?_, ?_, ?_, ?_⟩, ?_, ?_,
    ⟨⟨k - j + 1, ?_⟩, ?_, ?_⟩, ⟨⟨-j + 1, ?_⟩, ?_, ?_⟩⟩
  · simp [convLoc, geoA, liftF, d1, Except.map, bind, Except.bind, pure, Except.pure]; norm_num
  · simp [convLoc, geoA, liftF, g1, Except.map, bind, Except.bind, pure, Except.pure]
  · simp [poleAt, geoA, liftF, p1, Except.map, bind, Except.bind, pure, Except.pure]; norm_num
  · simp [poleAt, geoA, liftF, p1, Except.map, bind, Except.bind, pure, Except.pure]; norm_num
  · norm_num [abs_lt]
  · norm_num [abs_lt]
  · norm_num
  · intro i hi
    simp only at hi
    exact not_twelfth (x := 11) (by norm_num) (by norm_num) (i + 2 * k - 2 * j + 2) (by push_cast; linarith)
  · norm_num
  · norm_num
  · norm_num
  · show (11 : ℝ) = pl - dl + _
    rw [p2, d2]; push_cast; ring
  · norm_num
  · norm_num
  · show (13 : ℝ) = pl - 11 + _
    rw [p2]; push_cast; ring
  · norm_num
  · norm_num

/-- The hypotheses of `C119_unbound_refuted` are met: the library knows the pole but not the place of the data. -/
example : ∃ pl, OneGeo { geoA with mlt2lon := fun _ _ => none, a2g := fun _ la lon _ _ => (lon.bind fun _ => la, lon) } 1
    (oneVD 20 22 3 4) midnight (some 3) (some 4) (some 0) (some 20) (some 22) (some 350) none none (some 90) (some pl) := by
  obtain ⟨pl, p1, -⟩ := solar_slt 0 midnight
  exact ⟨pl, .inr rfl, rfl, rfl, rfl, rfl, rfl, rfl, rfl, rfl, rfl, rfl, by simp, by simp [liftF, p1, Except.map]⟩

/-- The hypotheses of `C119_pole_refuted` are met. -/
example : ∃ dl pl, OneGeo { geoA with a2g := fun _ _ lon _ _ => (lon.map fun x => 80 + x / 3, lon) } 1 (oneVD 80 0 3 4) midnight
    (some 3) (some 4) (some 0) (some 80) (some 0) (some 350) (some 90) (some dl) (some 80) (some pl) ∧ (0 : ℝ) < 80 ∧
    ∀ k : ℤ, pl ≠ dl + 12 * k := by
  obtain ⟨dl, d1, k, d2⟩ := solar_slt 30 midnight
  obtain ⟨pl, p1, j, p2⟩ := solar_slt 0 midnight
  rw [ut_midnight] at d2 p2
  refine ⟨dl, pl, ⟨.inr rfl, rfl, rfl, rfl, rfl, rfl, rfl, rfl, rfl, ?_, ?_, ?_, ?_⟩, by norm_num, fun i hi => ?_⟩
  · simp [geoA]; norm_num
  · simp [geoA, liftF, d1, Except.map]
  · simp
  · simp [liftF, p1, Except.map]
  · exact not_twelfth (x := 2) (by norm_num) (by norm_num) (-i - 2 * k + 2 * j) (by push_cast; linarith)

/-- The hypotheses of `C121_heights_refuted` are met. -/
example : (Reads (geoVD 1).lat 2 fun i => some (1 * (exPt i).da)) ∧ (Reads (geoVD 1).lt 2 fun i => some (exPt i).dl) ∧
    (geoVD 1).height = .many ((List.range 2).map fun _ => some 350) ∧ (geoVD 1).locCoord = "magnetic" ∧
    ({ geoVD 1 with ocbInd := .one 1 } : VD).ocbInd = .one 1 ∧
    pyIdx (exBnd midnight).dtime (exBnd midnight).recInd = .ok midnight :=
  ⟨.inr rfl, .inr rfl, rfl, rfl, rfl, rfl⟩

/-- The hypotheses of `C121_indices_refuted` are met: one geodetic place, two indices. -/
example : ∃ v : VD, HoldsGeo geoA 1 v (.many ((List.range 2).map fun _ => midnight)) 2 (fun _ => geoY 1 0) ∧
    v.locCoord = v.vectCoord ∧ v.ocbInd.shape = some 2 ∧ v.datInd.shape = none ∧ Gap v ∧
    timesOf (exBnd midnight) v = .ok (.many ((List.range 2).map fun _ => midnight)) ∧
    ∃ a b : ℝ, ∀ lon, SolarTime lon (geoY 1 0).t (geoY 1 0).dl →
      geoA.g2a (decide (v.vectCoord = "geocentric")) (some (geoY 1 0).da) (some lon) (geoY 1 0).h (geoY 1 0).t = (some a, some b) := by
  refine ⟨{ exVD with
      datInd := .one 0, lat := .one (some (geoY 1 0).da), lt := .one (some (geoY 1 0).dl), height := .one (some 350)
      vectN := .one (some (geoY 1 0).n), vectE := .one (some (geoY 1 0).e), vectZ := .one (some (geoY 1 0).z)
      locCoord := "geodetic", vectCoord := "geodetic", ocbLat := .many [none, none] },
    ⟨.inr rfl, .inl rfl, .inl ⟨_, rfl, fun _ _ => rfl⟩, .inl ⟨_, rfl, fun _ _ => rfl⟩, .inl ⟨_, rfl, fun _ _ => rfl⟩,
      .inl ⟨_, rfl, fun _ _ => rfl⟩, .inr rfl, rfl, fun h => by simp [Arr.shape] at h, fun _ => rfl, fun i hi => ?_,
      .inl ⟨rfl, .inl ⟨_, rfl, fun _ _ => rfl⟩, .inl ⟨_, rfl, fun _ _ => rfl⟩, 0, by norm_num, fun lon _ => ⟨_, _, rfl⟩⟩⟩, rfl, rfl, rfl,
    .inl ?_, rfl, _, _, fun lon _ => rfl⟩
  · simp only [geoA, geoY, Option.map_some]
    norm_num
  · intro x hx
    simp [Arr.entries] at hx
    exact hx

end Ocb.Scale
