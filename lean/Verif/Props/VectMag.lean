import Verif.Model.VectMag
import Verif.Props.SetOcbMore
import Verif.Props.Time

/-!
# C118, C119: magnetic components of geographic vectors
-/

set_option autoImplicit false

namespace Ocb.Scale

open Ocb.Time Ocb.Coord Ocb.Vec

/-! ## Locations -/

/-- What `update_loc_coords` leaves behind when it converts. -/
theorem updateLoc_conv (lower : String → String) (A : Aacgm) (v : VD) (ts : Arr Tod) (coord : String) (m : ℕ) (hm : 0 < m)
    (las lts hs : ℕ → F) (tt : ℕ → Tod) (hla : Reads v.lat m las) (hlt : Reads v.lt m lts) (hh : Reads v.height m hs)
    (hts : Reads ts m tt) (hsh : v.lat.shape = v.lt.shape) (hd : v.datInd.shape = none ∨ v.datInd.shape = some m)
    (hc : lower coord ≠ v.locCoord) (toMag geoc : Bool) (htm : toMag = decide (lower coord = "magnetic"))
    (hg : geoc = if toMag then decide (v.locCoord = "geocentric") else decide (lower coord = "geocentric")) (o : ℕ → F × F)
    (ho : ∀ i, i < m → convLoc A toMag geoc (las i) (lts i) (hs i) (tt i) = .ok (o i)) :
    ∃ la lt h, updateLoc lower A v ts coord = .ok { v with lat := la, lt := lt, height := h, locCoord := coord } ∧
      (Reads la m fun i => (o i).1) ∧ (Reads lt m fun i => (o i).2) ∧ Reads h m hs ∧
      (ts.shape = none → h = v.height) ∧ (ts.shape ≠ none → v.height.shape = v.lat.shape → h.shape ≠ none) ∧
      (ts.shape ≠ none → la.shape ≠ none) := by
  subst htm
  have hlen : ∀ l : List Tod, ts = .many l → l.length = m := by
    intro l hl
    rcases hts with ⟨x, hx, -⟩ | hx
    · rw [hx] at hl; cases hl
    · rw [hx] at hl; rw [← Arr.many.inj hl]; simp
  obtain ⟨la', lt', h', g1, g3, g4, g5, g6, g7⟩ : ∃ la lt h, growLoc v ts = .ok { v with lat := la, lt := lt, height := h } ∧
      Reads la m las ∧ Reads lt m lts ∧ Reads h m hs ∧ (ts.shape = none → h = v.height) ∧
      (ts.shape ≠ none → v.height.shape = v.lat.shape → h.shape ≠ none) := by
    cases ts with
    | one t =>
      refine ⟨v.lat, v.lt, v.height, ?_, hla, hlt, hh, fun _ => rfl, fun h => absurd rfl h⟩
      unfold growLoc
      cases v.lt.shape <;> cases v.lat.shape <;> rfl
    | many l =>
      have hl : (Arr.many (l.map fun _ => (0 : ℤ))).shape = some m := by simp [Arr.shape, hlen l rfl]
      cases ha : v.lat with
      | one a =>
        rw [ha] at hsh
        cases hb : v.lt with
        | many l => rw [hb] at hsh; cases hsh
        | one b =>
          refine ⟨spread (.many (l.map fun _ => 0)) v.lat, spread (.many (l.map fun _ => 0)) v.lt,
            spread (.many (l.map fun _ => 0)) v.height, ?_, hla.spread _ (.inr hl), hlt.spread _ (.inr hl),
            hh.spread _ (.inr hl), fun h => by simp [Arr.shape] at h, fun _ _ => ?_⟩
          · unfold growLoc; rw [ha, hb]; rfl
          · cases v.height <;> simp [spread, Arr.full, Arr.shape]
      | many a =>
        rw [ha] at hsh
        cases hb : v.lt with
        | one b => rw [hb] at hsh; cases hsh
        | many b =>
          refine ⟨v.lat, v.lt, v.height, ?_, hla, hlt, hh, fun _ => rfl, fun _ h => by rw [h]; simp [Arr.shape]⟩
          unfold growLoc
          have ham : a.length = m := by
            rw [ha] at hla
            rcases hla with ⟨x, hx, -⟩ | hx
            · cases hx
            · rw [Arr.many.inj hx]; simp
          rw [hb] at hsh
          rw [ha, hb]
          show (if some b.length = some l.length ∧ some a.length = some l.length then _ else _) = _
          rw [if_pos ⟨by rw [hlen l rfl, ← ham]; exact hsh.symm, by rw [hlen l rfl, ham]⟩]
          cases v; cases ha; cases hb; rfl
  obtain ⟨ll, a1, a2, -⟩ := g3.zip g4
  obtain ⟨llh, b1, b2, -⟩ := a2.zip g5
  obtain ⟨all, c1, c2, c3⟩ := b2.zip hts
  obtain ⟨out, e1, e2, e3⟩ := c2.mapE hm (fun x => convLoc A _ geoc x.1.1.1 x.1.1.2 x.1.2 x.2) o ho
  refine ⟨spread v.datInd (out.map Prod.fst), spread v.datInd (out.map Prod.snd), h', ?_, (e2.map Prod.fst).spread _ hd,
    (e2.map Prod.snd).spread _ hd, g5, g6, g7, fun ht hc => ?_⟩
  rotate_left
  · have ho : out.shape = none := by
      cases out with
      | one a => rfl
      | many l => cases hdi : v.datInd <;> rw [hdi] at hc <;> simp [spread, Arr.map, Arr.shape] at hc
    exact ht (c3.1 (e3.1 ho)).2
  unfold updateLoc
  rw [if_pos hc]
  simp only [bind, Except.bind]
  rw [← hg, g1]
  simp only [convAll, bind, Except.bind]
  rw [a1]
  simp only
  rw [b1]
  simp only
  rw [c1]
  simp only
  rw [e1]
  rfl

theorem Reads.growTo {α : Type*} {a : Arr α} {m : ℕ} {f : ℕ → α} (h : Reads a m f) (s : Shape)
    (hs : s = none ∨ s = some m) : Reads (growTo s a) m f := by
  rcases h with ⟨x, rfl, hx⟩ | rfl
  · rcases hs with rfl | rfl
    · exact .inl ⟨x, rfl, hx⟩
    · refine .inr ?_
      show Arr.many (List.replicate m x) = _
      congr 1
      exact (List.eq_replicate_iff.2 ⟨by simp, by
        intro b hb
        obtain ⟨i, hi, rfl⟩ := List.mem_map.1 hb
        exact hx i (List.mem_range.1 hi)⟩).symm
  · exact .inr rfl

theorem Reads.shape {α : Type*} {a : Arr α} {m : ℕ} {f : ℕ → α} (h : Reads a m f) :
    a.shape = none ∨ a.shape = some m := by
  rcases h with ⟨x, rfl, hx⟩ | rfl
  · exact .inl rfl
  · exact .inr (by simp [Arr.shape])

/-- The places of `m` vectors. -/
structure PlacesOf (p : Places) (m : ℕ) (gl ga ml ma : ℕ → F) : Prop where
  geoLt : Reads p.geoLt m gl
  geoLat : Reads p.geoLat m ga
  magLt : Reads p.magLt m ml
  magLat : Reads p.magLat m ma

theorem PlacesOf.even {p : Places} {m : ℕ} {gl ga ml ma : ℕ → F} (h : PlacesOf p m gl ga ml ma) :
    PlacesOf p.even m gl ga ml ma := by
  unfold Places.even
  split
  · split
    · exact ⟨h.geoLt.growTo _ h.magLt.shape, h.geoLat.growTo _ h.magLt.shape, h.magLt, h.magLat⟩
    · split
      · exact ⟨h.geoLt, h.geoLat, h.magLt.growTo _ h.geoLt.shape, h.magLat.growTo _ h.geoLt.shape⟩
      · exact h
  · exact h

theorem Reads.known {a : Arr F} {m : ℕ} {f : ℕ → F} (h : Reads a m f) {i : ℕ} (hi : i < m) (hf : f i ≠ none) :
    a.allNan = false := by
  rcases h with ⟨x, rfl, hx⟩ | rfl
  · rw [hx i hi] at hf
    cases x with
    | none => exact absurd rfl hf
    | some y => rfl
  · show ((List.range m).map f).all (fun e => e.isNone) = false
    rw [List.all_eq_false]
    refine ⟨f i, List.mem_map.2 ⟨i, List.mem_range.2 hi, rfl⟩, ?_⟩
    cases hfi : f i with
    | none => exact absurd hfi hf
    | some y => simp

/-- The magnetic pole as read for `m` vectors. -/
theorem magPole_ok (A : Aacgm) (geoc : Bool) (hem : ℤ) (v : VD) (ts : Arr Tod) (m : ℕ) (hm : 0 < m) (hs : ℕ → F)
    (tt : ℕ → Tod) (hh : Reads v.height m hs) (hts : Reads ts m tt) (h1 : ts.shape = none → v.height.shape = none ∨ m = 1)
    (h2 : ts.shape ≠ none → v.height.shape ≠ none) (o : ℕ → F × F)
    (ho : ∀ i, i < m → poleAt A geoc hem (hs i) (tt i) = .ok (o i)) :
    ∃ p, magPole A geoc hem v ts = .ok p ∧ Reads p m o := by
  unfold magPole
  rcases hts with ⟨t, rfl, ht⟩ | rfl
  · have hs1 : single v.height = .ok (hs 0) ∧ ∀ i, i < m → hs i = hs 0 := by
      rcases hh with ⟨x, hx, hx'⟩ | hx
      · rw [hx, hx' 0 hm]; exact ⟨rfl, fun i hi => hx' i hi⟩
      · rcases h1 rfl with h | h
        · rw [hx] at h; cases h
        · subst h
          rw [hx]
          exact ⟨rfl, fun i hi => by rw [show i = 0 by omega]⟩
    refine ⟨.one (o 0), ?_, .inl ⟨_, rfl, fun i hi => ?_⟩⟩
    · simp only [bind, Except.bind]
      rw [hs1.1]
      simp only
      rw [← ht 0 hm, ho 0 hm]
      rfl
    · have a := ho i hi
      rw [hs1.2 i hi, ht i hi, ← ht 0 hm, ho 0 hm] at a
      exact (Except.ok.inj a).symm
  · have hmany : v.height = .many ((List.range m).map hs) := by
      rcases hh with ⟨x, hx, -⟩ | hx
      · exact absurd (by rw [hx]; rfl) (h2 (by simp [Arr.shape]))
      · exact hx
    refine ⟨.many ((List.range m).map o), ?_, .inr rfl⟩
    have hz : ((List.range m).map tt).zipIdx = (List.range m).map fun i => (tt i, i) := by
      apply List.ext_getElem
      · simp
      · intro i h1 h2
        simp
    simp only [bind, Except.bind]
    rw [hz, mapE_range m _ _ o]
    · rfl
    · intro i hi
      have : heightAt v i = .ok (hs i) := by
        unfold heightAt
        rw [hmany]
        simp [hi]
      rw [this]
      exact ho i hi

/-! ## Angles off the meridian -/

/-- Off the meridian of a pole away from the base pole the angle is neither 0 nor 180. -/
theorem angle_off {da dl pa pl s : ℝ} (hs : s = 1 ∨ s = -1) (hda : |da| < 90) (hpa : |pa| < 90)
    (h : ∀ k : ℤ, pl ≠ dl + 12 * k) :
    degrees (angleAt (place da dl) (basePole s) (place pa pl)) ≠ 0 ∧
    degrees (angleAt (place da dl) (basePole s) (place pa pl)) ≠ 180 := by
  have h' : Real.sin (hourAngle (pl - dl)) ≠ 0 := by
    rw [Ne, sin_hour_zero]; push Not; exact h
  have hpos := tLen_pos (a := radians da) (b := radians pa) (cos_lat_pos hda).ne' h'
  have hw : tE (radians pa) (hourAngle (pl - dl)) ≠ 0 := mul_ne_zero (cos_lat_pos hpa).ne' h'
  have hsq : (s * tN (radians da) (radians pa) (hourAngle (pl - dl))) ^ 2 <
      tLen (radians da) (radians pa) (hourAngle (pl - dl)) ^ 2 := by
    have hs2 : s ^ 2 = 1 := by rcases hs with rfl | rfl <;> norm_num
    rw [mul_pow, hs2, one_mul]
    unfold tLen
    rw [Real.sq_sqrt (by positivity)]
    have := sq_pos_of_ne_zero hw
    linarith
  have hlt := abs_lt_of_sq_lt_sq hsq hpos.le
  rw [angleAt_eq hs (cos_lat_pos hda)]
  constructor
  · rw [Ne, ← degrees_zero, degrees_inj, Real.arccos_eq_zero, le_div_iff₀ hpos]
    linarith [(abs_lt.1 hlt).2]
  · rw [Ne, ← degrees_pi, degrees_inj, Real.arccos_eq_pi, div_le_iff₀ hpos]
    linarith [(abs_lt.1 hlt).1]

/-! ## The rotation -/

/-- One vector: geographic latitude and local time, geographic place of the magnetic pole, components, magnetic
location. -/
structure GV where
  da : ℝ
  dl : ℝ
  pa : ℝ
  pl : ℝ
  n : ℝ
  e : ℝ
  z : ℝ
  ma : F
  ml : F

/-- Off the meridian of the pole, with a horizontal part; neither place is at the geographic pole or the pole on the
equator. -/
structure GV.Good (y : GV) : Prop where
  lat : |y.da| < 90
  pole : |y.pa| < 90
  pole0 : y.pa ≠ 0
  off : ∀ k : ℤ, y.pl ≠ y.dl + 12 * k
  vec : ¬ (y.n = 0 ∧ y.e = 0)

/-- The angle between the directions of the two poles. -/
noncomputable def GV.angle (y : GV) : ℝ :=
  degrees (angleAt (place y.da y.dl) (basePole (SignType.sign y.pa)) (place y.pa y.pl))

/-- What `adjust_vector` is given. -/
noncomputable def GV.vin (y : GV) : VIn :=
  { lt := y.ml, lat := y.ma, n := some y.n, e := some y.e, z := some y.z, poleLt := some y.pl, poleLat := some y.pa
    ang := some y.angle, pq := poleQuad (some y.dl) (some y.pl) (some y.angle), vq := vectQuad (some y.n) (some y.e) }

theorem GV.whole (y : GV) : Whole y.vin :=
  ⟨⟨_, rfl⟩, ⟨_, rfl⟩, ⟨_, rfl⟩, poleQuad_in _ _ _, vectQuad_in _ _⟩

theorem sign_cases {x : ℝ} (h : x ≠ 0) : (SignType.sign x : ℝ) = 1 ∨ (SignType.sign x : ℝ) = -1 := sign_real h

theorem GV.Good.norm {y : GV} (h : y.Good) : y.vin.IsNorm := by
  have ha := angle_off (sign_cases h.pole0) h.lat h.pole h.off
  rintro (⟨h1, h2⟩ | h1 | h1)
  · exact h.vec ⟨Option.some.inj h1, Option.some.inj h2⟩
  · exact ha.1 (Option.some.inj h1)
  · exact ha.2 (Option.some.inj h1)

/-- The north component of the result. -/
noncomputable def GV.north (y : GV) : ℝ :=
  (y.n * ((SignType.sign y.pa : ℝ) * tN (radians y.da) (radians y.pa) (hourAngle (y.pl - y.dl)))
    + y.e * tE (radians y.pa) (hourAngle (y.pl - y.dl))) / tLen (radians y.da) (radians y.pa) (hourAngle (y.pl - y.dl))

/-- The east component of the result. -/
noncomputable def GV.east (y : GV) : ℝ :=
  (y.e * ((SignType.sign y.pa : ℝ) * tN (radians y.da) (radians y.pa) (hourAngle (y.pl - y.dl)))
    - y.n * tE (radians y.pa) (hourAngle (y.pl - y.dl))) / tLen (radians y.da) (radians y.pa) (hourAngle (y.pl - y.dl))

theorem GV.Good.out {y : GV} (h : y.Good) : rotated y.vin = (some y.north, some y.east, some y.z) := by
  -- the same vector with its geographic location
  let x : VIn := { y.vin with lt := some y.dl, lat := some y.da }
  have hl : Linked x y.da y.dl y.n y.e y.pa y.pl :=
    ⟨rfl, rfl, rfl, rfl, rfl, rfl, (C40_off_meridian y.dl y.da y.pl y.pa h.lat h.pole0 h.off).1, .inr rfl, .inr rfl⟩
  have h1 := linked_out hl h.lat h.pole0 h.pole.le (fun hc => absurd hc h.pole.ne) h.off h.vec
  have hw : Whole x := ⟨⟨_, rfl⟩, ⟨_, rfl⟩, ⟨_, rfl⟩, poleQuad_in _ _ _, vectQuad_in _ _⟩
  rw [hw.one] at h1
  have hN : x.IsNorm := h.norm
  have h2 : rotated x = rotated y.vin := by
    rw [rotated, if_pos hN, rotated, if_pos h.norm]
    rfl
  rw [← h2]
  exact Except.ok.inj h1

theorem GV.Good.mag {y : GV} (h : y.Good) : y.north ^ 2 + y.east ^ 2 = y.n ^ 2 + y.e ^ 2 := by
  have h' : Real.sin (hourAngle (y.pl - y.dl)) ≠ 0 := by
    rw [Ne, sin_hour_zero]; push Not; exact h.off
  have hpos := tLen_pos (a := radians y.da) (b := radians y.pa) (cos_lat_pos h.lat).ne' h'
  have hsq : tLen (radians y.da) (radians y.pa) (hourAngle (y.pl - y.dl)) ^ 2 =
      tE (radians y.pa) (hourAngle (y.pl - y.dl)) ^ 2 +
        tN (radians y.da) (radians y.pa) (hourAngle (y.pl - y.dl)) ^ 2 := by
    unfold tLen
    rw [Real.sq_sqrt (by positivity)]
  have hs2 : (SignType.sign y.pa : ℝ) ^ 2 = 1 := by rcases sign_cases h.pole0 with h | h <;> rw [h] <;> norm_num
  unfold GV.north GV.east
  rw [div_pow, div_pow, ← add_div, div_eq_iff (pow_ne_zero 2 hpos.ne'), hsq]
  linear_combination ((y.n ^ 2 + y.e ^ 2) * tN (radians y.da) (radians y.pa) (hourAngle (y.pl - y.dl)) ^ 2) * hs2

theorem turn_ok {v : VD} {p : Places} {pole : Arr (F × F)} {m : ℕ} {ys : ℕ → GV} (hm : 0 < m)
    (hp : PlacesOf p m (fun i => some (ys i).dl) (fun i => some (ys i).da) (fun i => (ys i).ml) (fun i => (ys i).ma))
    (hq : Reads pole m fun i => (some (ys i).pl, some (ys i).pa)) (hn : Reads v.vectN m fun i => some (ys i).n)
    (he : Reads v.vectE m fun i => some (ys i).e) (hz : Reads v.vectZ m fun i => some (ys i).z)
    (hg : ∀ i, i < m → (ys i).Good) :
    ∃ o, turn v p pole = .ok o ∧ Reads o m fun i => (some (ys i).north, some (ys i).east, some (ys i).z) := by
  obtain ⟨data, d1, d2, -⟩ := hp.geoLt.zip hp.geoLat
  obtain ⟨pl, p1, p2, -⟩ := (hq.map Prod.fst).zip (hq.map Prod.snd)
  obtain ⟨all, a1, a2, -⟩ := d2.zip p2
  have hang : ∃ g, poleAngles all = .ok g ∧ Reads g m fun i => some (ys i).angle := by
    have hgood := fun i hi => C40_off_meridian (ys i).dl (ys i).da (ys i).pl (ys i).pa (hg i hi).lat (hg i hi).pole0
      (hg i hi).off
    rcases a2 with ⟨x, rfl, hx⟩ | rfl
    · refine ⟨.one (some (ys 0).angle), ?_, .inl ⟨_, rfl, fun i hi => ?_⟩⟩
      · unfold poleAngles
        rw [← hx 0 hm]
        simp only
        rw [(hgood 0 hm).1]
        rfl
      · have e := (hx i hi).trans (hx 0 hm).symm
        simp only [Prod.mk.injEq, Option.some.injEq] at e
        obtain ⟨⟨e1, e2⟩, e3, e4⟩ := e
        show some (ys i).angle = some (ys 0).angle
        unfold GV.angle
        rw [e1, e2, e3, e4]
    · refine ⟨.many ((List.range m).map fun i => some (ys i).angle), ?_, .inr rfl⟩
      show (Ocb.mapE (fun x : (F × F) × (F × F) => poleAngleEntry x.1.1 x.1.2 x.2.1 x.2.2) _).map Arr.many = _
      rw [mapE_range m _ _ (fun i => some (ys i).angle) fun i hi => (hgood i hi).2]
      rfl
  obtain ⟨g, g1, g2⟩ := hang
  obtain ⟨lts, l1, l2, -⟩ := hp.geoLt.zip (hq.map Prod.fst)
  obtain ⟨la, q1, q2, -⟩ := l2.zip g2
  obtain ⟨ne, n1, n2, -⟩ := hn.zip he
  obtain ⟨o, o1, o2, -⟩ := adjust_gen (v := { v with
      lt := p.magLt, lat := p.magLat, aacgmMlt := pole.map Prod.fst, aacgmLat := pole.map Prod.snd, poleAngle := g
      ocbQuad := la.map fun x => poleQuad x.1.1 x.1.2 x.2
      vecQuad := ne.map fun x => vectQuad x.1 x.2 }) (xs := fun i => (ys i).vin) hm
    ⟨hp.magLt, hp.magLat, hq.map Prod.fst, hq.map Prod.snd, g2, q2.map _, hn, he, hz, n2.map _⟩
    (fun i _ => (ys i).whole) (.inl fun i hi => (hg i hi).norm)
  refine ⟨o, ?_, o2.congr fun i hi => (hg i hi).out⟩
  unfold turn
  rw [d1]
  simp only [bind, Except.bind]
  rw [p1]
  simp only
  rw [a1]
  simp only
  rw [g1]
  simp only
  rw [if_neg (by rw [g2.notNan hm]; simp), l1]
  simp only
  rw [q1]
  simp only
  rw [n1]
  simp only
  exact o1

/-! ## The claims -/

/-- Hours of the day, universal time. -/
noncomputable def utHours (t : Tod) : ℝ := t.hour + t.minute / 60 + t.second / 3600 + t.micro / 3600000000

/-- `lt` is the solar local time at longitude `lon`. -/
def SolarTime (lon : ℝ) (t : Tod) (lt : ℝ) : Prop := SameHour lt (lon / 15 + utHours t)

/-- A geographic vector: latitude and solar local time of its place, components, geographic latitude and longitude of
the magnetic pole, height and time. -/
structure GeoIn where
  da : ℝ
  dl : ℝ
  n : ℝ
  e : ℝ
  z : ℝ
  plat : ℝ
  plon : ℝ
  h : F
  t : Tod

/-- The object holds these vectors, `ts` are their times, and the library locates the magnetic pole of hemisphere
`hem` where the vectors say.  The vectors may be located in their own system, in which case the library knows the
magnetic location of one of them, or in the magnetic one, in which case it takes that location to the geographic
place. -/
structure HoldsGeo (A : Aacgm) (hem : ℤ) (v : VD) (ts : Arr Tod) (m : ℕ) (ys : ℕ → GeoIn) : Prop where
  coord : v.vectCoord = "geocentric" ∨ v.vectCoord = "geodetic"
  datInd : v.datInd.shape = none ∨ v.datInd.shape = some m
  n : Reads v.vectN m fun i => some (ys i).n
  e : Reads v.vectE m fun i => some (ys i).e
  z : Reads v.vectZ m fun i => some (ys i).z
  h : Reads v.height m fun i => (ys i).h
  t : Reads ts m fun i => (ys i).t
  shape : v.lat.shape = v.lt.shape
  oneTime : ts.shape = none → v.height.shape = none ∨ m = 1
  manyTimes : ts.shape ≠ none → v.height.shape = v.lat.shape
  pole : ∀ i, i < m → A.a2g (decide (v.vectCoord = "geocentric")) (some (hem * 90)) (some 0) (ys i).h (ys i).t =
    (some (ys i).plat, some (ys i).plon)
  place : (v.locCoord = v.vectCoord ∧ (Reads v.lat m fun i => some (ys i).da) ∧ (Reads v.lt m fun i => some (ys i).dl) ∧
      ∃ j, j < m ∧ ∀ lon, SolarTime lon (ys j).t (ys j).dl →
        ∃ a b : ℝ, A.g2a (decide (v.vectCoord = "geocentric")) (some (ys j).da) (some lon) (ys j).h (ys j).t = (some a, some b)) ∨
    (v.locCoord = "magnetic" ∧ ∃ la ml : ℕ → F, Reads v.lat m la ∧ Reads v.lt m ml ∧
      (∃ j, j < m ∧ la j ≠ none ∧ ml j ≠ none) ∧ ∀ i, i < m → ∃ lon,
        A.a2g (decide (v.vectCoord = "geocentric")) (la i) (A.mlt2lon (ml i) (ys i).t) (ys i).h (ys i).t =
          (some (ys i).da, some lon) ∧ SolarTime lon (ys i).t (ys i).dl)

/-- Neither the vector nor the magnetic pole is at the geographic pole, the pole is not on the equator, the vector is
off its meridian and has a horizontal part. -/
structure GeoIn.Good (y : GeoIn) : Prop where
  lat : |y.da| < 90
  pole : |y.plat| < 90
  pole0 : y.plat ≠ 0
  off : ∀ k : ℤ, y.plon / 15 + utHours y.t ≠ y.dl + 12 * k
  vec : ¬ (y.n = 0 ∧ y.e = 0)

theorem ut_eq (t : Tod) : datetime2hr t = utHours t := by unfold datetime2hr utHours; ring

theorem solar_slt (g : ℝ) (t : Tod) : ∃ s, glon2slt g t = .ok s ∧ SolarTime g t s := by
  obtain ⟨s, h1, k, h2⟩ := C05_glon2slt_value g t
  exact ⟨s, h1, k, by rw [h2, ut_eq]; ring⟩

theorem solar_glon (s : ℝ) (t : Tod) : ∃ g, slt2glon s t = .ok g ∧ SolarTime g t s := by
  refine ⟨_, slt2glon_ok s t, ?_⟩
  obtain ⟨k, hk⟩ := fixVal_congr ((s - datetime2hr t) * 15) (-180) 360 360 (by norm_num : (0 : ℝ) < 360)
  refine ⟨-k, ?_⟩
  rw [hk, ← ut_eq]
  push_cast
  ring

/-- The general result for both hemispheres of the pole. -/
theorem updateVect_out (lower : String → String) (hl : ∀ s ∈ ["magnetic", "geocentric", "geodetic"], lower s = s)
    (A : Aacgm) (hem : ℤ) (v : VD) (ts : Arr Tod) (m : ℕ) (hm : 0 < m) (ys : ℕ → GeoIn) (h : HoldsGeo A hem v ts m ys)
    (hg : ∀ i, i < m → (ys i).Good) :
    ∃ (w : VD) (gs : ℕ → GV), updateVect lower A v ts hem = .ok w ∧ w.vectCoord = "magnetic" ∧ w.locCoord = "magnetic" ∧
      (Reads w.vectN m fun i => some (gs i).north) ∧ (Reads w.vectE m fun i => some (gs i).east) ∧
      (Reads w.vectZ m fun i => some (gs i).z) ∧
      (Reads w.vectMag m fun i => some (√((ys i).n ^ 2 + (ys i).e ^ 2 + (ys i).z ^ 2))) ∧
      ∀ i, i < m → (gs i).Good ∧ (gs i).da = (ys i).da ∧ SameHour (gs i).dl (ys i).dl ∧ (gs i).n = (ys i).n ∧
        (gs i).e = (ys i).e ∧ (gs i).z = (ys i).z ∧ (gs i).pa = (ys i).plat ∧
        SolarTime (ys i).plon (ys i).t (gs i).pl := by
  have hvm : v.vectCoord ≠ "magnetic" := by rcases h.coord with h | h <;> rw [h] <;> decide
  set geoc := decide (v.vectCoord = "geocentric") with hgeoc
  -- the pole
  have hpole : ∀ i, ∃ p, SolarTime (ys i).plon (ys i).t p ∧ (i < m → poleAt A geoc hem (ys i).h (ys i).t = .ok (some p, some (ys i).plat)) := by
    intro i
    obtain ⟨s, s1, s2⟩ := solar_slt (ys i).plon (ys i).t
    refine ⟨s, s2, fun hi => ?_⟩
    unfold poleAt
    rw [h.pole i hi]
    simp [liftF, s1, bind, Except.bind, Except.map, pure, Except.pure]
  choose pl hpl1 hpl2 using hpole
  -- both places
  obtain ⟨w, p, dl, ml, ma, b1, b2, b3, b4, b5, b6, b7, b8, b9⟩ : ∃ (w : VD) (p : Places) (dl : ℕ → ℝ) (ml ma : ℕ → F),
      bothPlaces lower A v ts = .ok (w, p) ∧
      PlacesOf p m (fun i => some (dl i)) (fun i => some (ys i).da) ml ma ∧ (∀ i, i < m → SameHour (dl i) (ys i).dl) ∧
      (∃ j, j < m ∧ ml j ≠ none ∧ ma j ≠ none) ∧ (w.vectN = v.vectN ∧ w.vectE = v.vectE ∧ w.vectZ = v.vectZ) ∧
      (Reads w.height m fun i => (ys i).h) ∧ (ts.shape = none → w.height.shape = none ∨ m = 1) ∧
      (ts.shape ≠ none → w.height.shape ≠ none) ∧ w.locCoord = "magnetic" := by
    rcases h.place with ⟨hloc, hla, hlt, j, hj, hknown⟩ | ⟨hloc, la, ml, hla, hlt, hknown, hplace⟩
    · have hne : lower "magnetic" ≠ v.locCoord := by
        rw [hl _ (by simp), hloc]; exact hvm.symm
      have hconv : ∀ i, ∃ o : F × F, (i < m → convLoc A true geoc (some (ys i).da) (some (ys i).dl) (ys i).h (ys i).t = .ok o) ∧
          (i = j → o.1 ≠ none ∧ o.2 ≠ none) := by
        intro i
        obtain ⟨g, g1, g2⟩ := solar_glon (ys i).dl (ys i).t
        refine ⟨A.g2a geoc (some (ys i).da) (some g) (ys i).h (ys i).t, fun hi => ?_, fun hij => ?_⟩
        · simp [convLoc, liftF, g1, bind, Except.bind, Except.map, pure, Except.pure]
        · subst hij
          obtain ⟨a, b, hab⟩ := hknown g g2
          rw [hab]
          simp
      choose o ho1 ho2 using hconv
      obtain ⟨la', lt', h', u1, u2, u3, u4, u5, u6, -⟩ := updateLoc_conv lower A v ts "magnetic" m hm _ _ _ _ hla hlt h.h h.t
        h.shape h.datInd hne true geoc (by rw [hl _ (by simp)]; rfl) (by rw [hloc, if_pos rfl]) o ho1
      refine ⟨{ v with lat := la', lt := lt', height := h', locCoord := "magnetic" },
        { geoLt := v.lt, geoLat := v.lat, magLt := lt', magLat := la' }, fun i => (ys i).dl, fun i => (o i).2, fun i => (o i).1, ?_, ⟨hlt, hla, u3, u2⟩, fun i _ => ⟨0, by simp⟩,
        ⟨j, hj, (ho2 j rfl).2, (ho2 j rfl).1⟩, ⟨rfl, rfl, rfl⟩, u4, fun ht => ?_, fun ht => u6 ht (h.manyTimes ht), rfl⟩
      · unfold bothPlaces
        rw [if_neg (by rw [hloc]; exact hvm), u1]
        rfl
      · show h'.shape = none ∨ _
        rw [u5 ht]; exact h.oneTime ht
    · have hvl : lower v.vectCoord = v.vectCoord := by
        rcases h.coord with h | h <;> rw [h] <;> exact hl _ (by simp)
      have hne : lower v.vectCoord ≠ v.locCoord := by rw [hvl, hloc]; exact hvm
      have hconv : ∀ i, ∃ s, i < m → convLoc A false geoc (la i) (ml i) (ys i).h (ys i).t = .ok (some (ys i).da, some s) ∧
          SameHour s (ys i).dl := by
        intro i
        by_cases hi : i < m
        · obtain ⟨lon, l1, k, l2⟩ := hplace i hi
          obtain ⟨s, s1, k', s2⟩ := solar_slt lon (ys i).t
          refine ⟨s, fun _ => ⟨?_, k' - k, by rw [s2, l2]; push_cast; ring⟩⟩
          unfold convLoc
          rw [if_neg (by simp)]
          simp only [bind, Except.bind]
          rw [l1]
          simp [liftF, s1, Except.map, pure, Except.pure]
        · exact ⟨0, fun h => absurd h hi⟩
      choose s hs using hconv
      obtain ⟨la', lt', h', u1, u2, u3, u4, u5, u6, -⟩ := updateLoc_conv lower A v ts v.vectCoord m hm _ _ _ _ hla hlt h.h h.t
        h.shape h.datInd hne false geoc (by rw [hvl]; simp [hvm]) (by rw [hvl, if_neg (by simp)])
        (fun i => (some (ys i).da, some (s i))) fun i hi => (hs i hi).1
      obtain ⟨j, hj, hj1, hj2⟩ := hknown
      refine ⟨{ v with lat := spread v.datInd v.lat, lt := spread v.datInd v.lt, height := h', locCoord := "magnetic" },
        { geoLt := lt', geoLat := la', magLt := v.lt, magLat := v.lat }, s, ml, la, ?_, ⟨u3, u2, hlt, hla⟩, fun i hi => (hs i hi).2,
        ⟨j, hj, hj2, hj1⟩, ⟨rfl, rfl, rfl⟩, u4, fun ht => ?_, fun ht => u6 ht (h.manyTimes ht), rfl⟩
      · unfold bothPlaces
        rw [if_pos hloc, u1]
        rfl
      · show h'.shape = none ∨ _
        rw [u5 ht]; exact h.oneTime ht
  -- the pole for every vector
  obtain ⟨pole, q1, q2⟩ := magPole_ok A geoc hem w ts m hm _ _ b6 h.t b7 b8
    (fun i => (some (pl i), some (ys i).plat)) hpl2
  let gs : ℕ → GV := fun i =>
    { da := (ys i).da, dl := dl i, pa := (ys i).plat, pl := pl i, n := (ys i).n, e := (ys i).e, z := (ys i).z
      ma := ma i, ml := ml i }
  have hgs : ∀ i, i < m → (gs i).Good := by
    intro i hi
    obtain ⟨k1, e1⟩ := b3 i hi
    obtain ⟨k2, e2⟩ := hpl1 i
    refine ⟨(hg i hi).lat, (hg i hi).pole, (hg i hi).pole0, fun k hk => (hg i hi).off (k + 2 * k1 - 2 * k2) ?_, (hg i hi).vec⟩
    simp only [gs] at hk
    push_cast
    linarith
  obtain ⟨o, o1, o2⟩ := turn_ok (v := w) (p := p.even) (pole := pole) (ys := gs) hm b2.even q2
    (by rw [b5.1]; exact h.n) (by rw [b5.2.1]; exact h.e) (by rw [b5.2.2]; exact h.z) hgs
  obtain ⟨c, c1, c2⟩ := (o2.map (·.1)).mag (o2.map (·.2.1)) (o2.map (·.2.2))
  refine ⟨{ w with
      vectN := o.map (·.1), vectE := o.map (·.2.1), vectZ := o.map (·.2.2), vectCoord := "magnetic", vectMag := c }, gs, ?_,
    rfl, b9, o2.map _, o2.map _, o2.map _, c2.congr fun i hi => ?_, fun i hi => ⟨hgs i hi, rfl, b3 i hi, rfl, rfl, rfl, rfl, hpl1 i⟩⟩
  · unfold updateVect
    rw [if_pos hvm, b1]
    simp only [bind, Except.bind]
    obtain ⟨j, hj, j1, j2⟩ := b4
    rw [if_neg (by rw [b2.magLt.known hj j1, b2.magLat.known hj j2]; simp), ← hgeoc, q1]
    simp only
    rw [o1]
    simp only [setVectMag, bind, Except.bind]
    rw [c1]
    rfl
  · show some (√((gs i).north ^ 2 + (gs i).east ^ 2 + (gs i).z ^ 2)) = _
    rw [(hgs i hi).mag]

end Ocb.Scale
