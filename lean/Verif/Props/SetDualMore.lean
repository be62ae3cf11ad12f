import Verif.Props.SetDual

/-!
# C169, C170: vectors of the other hemisphere and the radii used with dual boundaries
-/

set_option autoImplicit false

namespace Ocb.Scale

open Ocb.Time Ocb.Coord Ocb.Vec

/-- The corrections of an array with a location of the hemisphere: those at the local times. -/
theorem normal_corr {B : Rec} {pts : List (F × F)} {o : List (F × F × F)} {lats : List F}
    (hex : ∃ p ∈ pts, ∃ lat, p.1 = some lat ∧ InHem B.hem lat) (h : normalArr (some B) pts = .ok (o, lats)) :
    o.map (·.2.2) = pts.map fun p => p.2.map B.rf := by
  obtain ⟨p, hp, lat, h1, h2⟩ := hex
  unfold normalArr at h
  simp only [] at h
  rw [if_neg] at h
  · simp only [bind, Except.bind, pure, Except.pure] at h
    have hg : ∀ q : F × F, ∃ y, normalEntry B (if wrongHem B.hem q.1 then none else q.1) q.2 = .ok y ∧ y.2.2 = q.2.map B.rf := by
      intro q
      generalize (if wrongHem B.hem q.1 then none else q.1) = x
      cases x with
      | none => cases q.2 with
        | none => exact ⟨_, rfl, rfl⟩
        | some m => exact ⟨_, rfl, rfl⟩
      | some x => cases q.2 with
        | none => exact ⟨_, rfl, rfl⟩
        | some m =>
          simp only [normalEntry, normalPt_ok]
          exact ⟨_, rfl, rfl⟩
    choose g hg1 hg2 using hg
    rw [mapE_map (g := g) (fun a _ => hg1 a)] at h
    cases h
    rw [List.map_map]
    exact List.map_congr_left fun q _ => hg2 q
  · rw [Bool.and_eq_true, not_and]
    intro _ hc
    rw [List.all_eq_true] at hc
    have := hc p.1 (List.mem_map.2 ⟨p, hp, rfl⟩)
    rw [(wrongHem_iff _ _).2 ⟨lat, h1, h2⟩] at this
    cases this

theorem notNan_of {l : List F} {i : ℕ} {x : ℝ} (h : l[i]? = some (some x)) : (Arr.many l).allNan = false := by
  by_contra hc
  rw [Bool.not_eq_false] at hc
  have : ∀ y ∈ l, y = none := by simpa [Arr.allNan, Arr.entries] using hc
  have := this _ (List.mem_of_getElem? h)
  cases this

/-- The vector `y` belongs to record `j` of the circles, which is `O`, and to pair `k`. -/
structure OfRec (O : Rec) (k j : ℤ) (y : Pt) : Prop where
  r : y.r = O.r
  phi : y.phi = O.phiCent
  rho : y.rho = O.rCent
  k : y.k = k
  j : y.j = j
  rc : y.rc = O.rf y.dl

/-- What the steps after the pole leave alone. -/
structure KeepsR (v w : VD) : Prop where
  lat : w.ocbLat = v.ocbLat
  rc : w.rCorr = v.rCorr
  u : w.unscaledR = v.unscaledR
  s : w.scaledR = v.scaledR

theorem angle_keepsR {v w : VD} (h : calcPoleAngle v = .ok w) : KeepsR v w := by
  unfold calcPoleAngle at h
  simp only [bind, Except.bind, pure, Except.pure] at h
  repeat' split at h
  all_goals first | contradiction | skip
  cases h
  exact ⟨rfl, rfl, rfl, rfl⟩

theorem quad_keepsR {v w : VD} (h : defineQuadrants v = .ok w) : KeepsR v w := by
  unfold defineQuadrants at h
  simp only [bind, Except.bind, pure, Except.pure] at h
  repeat' split at h
  all_goals first | contradiction | skip
  cases h
  exact ⟨rfl, rfl, rfl, rfl⟩

theorem scale_keepsR {v w : VD} (h : scaleVector v = .ok w) : KeepsR v w := by
  unfold scaleVector at h
  simp only [bind, Except.bind, pure, Except.pure] at h
  split at h
  · contradiction
  split at h
  · contradiction
  split at h
  · contradiction
  split at h
  · contradiction
  split at h
  · contradiction
  split at h
  · contradiction
  cases h
  exact ⟨rfl, rfl, rfl, rfl⟩

theorem rotate_keepsR {f : Option (F → F → F → F)} {v w : VD} (h : rotateStep f v = .ok w) : KeepsR v w := by
  have tr : ∀ {a b c : VD}, KeepsR a b → KeepsR b c → KeepsR a c := fun h h' =>
    ⟨h'.lat.trans h.lat, h'.rc.trans h.rc, h'.u.trans h.u, h'.s.trans h.s⟩
  unfold rotateStep at h
  simp only [bind, Except.bind, pure, Except.pure] at h
  split at h
  · contradiction
  rename_i v1 h1
  split at h
  · cases h
    exact angle_keepsR h1
  · split at h
    · contradiction
    rename_i v2 h2
    refine tr (tr (angle_keepsR h1) (quad_keepsR h2)) (tr ?_ (scale_keepsR h))
    unfold pickScale
    split <;> exact ⟨rfl, rfl, rfl, rfl⟩

/-- `set_ocb` with a dual boundary, for vectors of which at least one is at a good location of the hemisphere. -/
theorem set_dual (conv : VD → Arr Tod → ℤ → Except PyErr VD) (D D' : DualObj) (O E : Rec) (k : ℤ)
    (hsel : selectPair D k = .ok D') (hD : PairOk D' O E) (s : DStore) (hs : s.WF D') (fresh : ℕ) (hem : ℤ)
    (times : List Tod) (t : Tod) (ht : pyIdx times D.recInd = .ok t) (v : VD) (m : ℕ) (ys : ℕ → Pt) (h : Holds v m ys)
    (hlat : v.lat = .many ((List.range m).map fun i => some (ys i).da))
    (hlt : v.lt = .many ((List.range m).map fun i => some (ys i).dl)) (hk : v.ocbInd = .one k)
    (hn : v.vectN.shape ≠ none) (hgap : coordsMissing v = true) (hf : v.scaleFunc = none)
    (hO : ∀ i, i < m → OfRec O k D'.ocbRecInd (ys i)) (hg : ∀ i, i < m → (ys i).Good (dualBnd D s fresh hem times))
    (a : ℕ) (ha : a < m) (ρo ρe : ℝ) (hgood : GoodPt O E (ys a).da (ys a).dl ρo ρe) :
    ∃ w out, setOcb conv (dualBnd D s fresh hem times) none v = .ok (w, k) ∧ w.ocbLat = .many (out.map (·.1)) ∧
      w.ocbMlt = .many (out.map (·.2.1)) ∧ w.rCorr = .many (out.map (·.2.2.2)) ∧ coordsMissing w = false ∧
      List.Forall₂ (DualOut D' O E) ((List.range m).map fun i => (some (ys i).da, some (ys i).dl)) out ∧
      (Reads w.ocbN m fun i =>
        some (towards (place (ys i).da (ys i).dl) (place (90 - O.rCent) (O.phiCent / 15))
          (horiz (ys i).da (ys i).dl (ys i).n (ys i).e))) ∧
      (Reads w.ocbE m fun i =>
        some (rightOf (place (ys i).da (ys i).dl) (place (90 - O.rCent) (O.phiCent / 15))
          (horiz (ys i).da (ys i).dl (ys i).n (ys i).e))) := by
  have hm : 0 < m := by omega
  set pts : List (F × F) := (List.range m).map fun i => (some (ys i).da, some (ys i).dl) with hpts
  have hzip : ((List.range m).map fun i => some (ys i).da).zip ((List.range m).map fun i => some (ys i).dl) = pts :=
    range_zip m _ _
  have hget : ∀ i, i < m → pts[i]? = some (some (ys i).da, some (ys i).dl) := by
    intro i hi
    simp [hpts, hi]
  have hex : ∃ p ∈ pts, ∃ lat, p.1 = some lat ∧ InHem O.hem lat :=
    ⟨_, List.mem_of_getElem? (hget a ha), _, rfl, hgood.hem⟩
  obtain ⟨out, s', o, lats, h1, h2, h3, h4, -, h5, h6, -, -⟩ := dualNormal_pair hD s hs fresh pts false
  obtain ⟨out', s'', g1, -, -, g2⟩ := dualNormal_out hD s hs fresh pts false
  rw [h1] at g1
  cases g1
  have hcorr := normal_corr hex h2
  obtain ⟨oa, oa1, oa2, -⟩ := forall₂_at g2 (hget a ha)
  obtain ⟨x, L, M, -, oa3, -⟩ := oa2 _ _ ρo ρe rfl hgood
  subst oa3
  set v1 : VD := { v with ocbLat := .many (out.map (·.1)), ocbMlt := .many (out.map (·.2.1)),
                          rCorr := .many (out.map (·.2.2.2)) } with hv1
  have hrc : Reads v1.rCorr m fun i => some (ys i).rc := by
    refine .inr ?_
    show Arr.many (out.map (·.2.2.2)) = _
    rw [h4, hcorr, hpts, List.map_map]
    congr 1
    refine List.map_congr_left fun i hi => ?_
    rw [(hO i (List.mem_range.1 hi)).rc]
    rfl
  have hfill : fillCoords (dualBnd D s fresh hem times) v = .ok (v1, k) := by
    unfold fillCoords
    rw [if_pos hgap, hk]
    simp only [dualBnd, normalDual, hsel, bind, Except.bind, pure, Except.pure, spread_one, hlat, hlt, hzip, h1]
    rw [hv1]
    simp only [hlat, hlt, hk]
  have hv1' : Holds v1 m ys := ⟨h.1, h.2, h.3, h.4, h.5, h.6, h.7, h.8, h.9⟩
  have hthere : coordsMissing v1 = false := by
    unfold coordsMissing
    simp only [hv1]
    rw [notNan_of (i := a) (x := D'.hem * x) (by rw [List.getElem?_map, oa1]; rfl),
      notNan_of (i := a) (x := M) (by rw [List.getElem?_map, oa1]; rfl),
      notNan_of (i := a) (x := O.rf (ys a).dl) (by rw [List.getElem?_map, oa1]; rfl)]
    rfl
  obtain ⟨v2, p1, p2, p3, p4, -⟩ := poleStep_ok hm hv1' (fun i hi => (hg i hi).toBase) hrc
  obtain ⟨v3, r1, r2, r3, r4, r5, -⟩ := rotateStep_start hm p2 (fun i hi => (hg i hi).toBase) none
  have hf3 : v3.scaleFunc = none := by rw [r3, p3]; exact hf
  have hpick : pickScale none v3 = v3 := by
    unfold pickScale
    rw [hf3]
    cases v3; cases hf3; rfl
  rw [hpick] at r1
  obtain ⟨w, s1, s2, s3, -, -, -⟩ := scaleVector_plain hm r2 hg (.inr (.inl (by rw [r4.1, p4.1]; exact hn))) hf3
  have hl1 := SmagOut.pole_leaves p1
  have hl2 := SmagOut.rotate_leaves (r1.trans s1)
  have hk2 := rotate_keepsR (r1.trans s1)
  have hk1 : v2.rCorr = v1.rCorr := by
    unfold poleStep at p1
    simp only [bind, Except.bind, pure, Except.pure] at p1
    repeat' split at p1
    all_goals first | contradiction | skip
    cases p1
    rfl
  refine ⟨w, out, ?_, ?_, ?_, ?_, ?_, g2, s2.congr fun i hi => ?_, s3.congr fun i hi => ?_⟩
  · have htt : timesOf (dualBnd D s fresh hem times) v = .ok (.one t) := by
      unfold timesOf
      rw [hk]
      simp only [dualBnd, ht]
      rfl
    unfold setOcb
    rw [htt]
    simp only [bind, Except.bind, pure, Except.pure]
    rw [if_neg (by rw [h.vect]; simp)]
    simp only [hfill, hthere, Bool.false_eq_true, if_false, p1, r1, s1]
  · rw [hl2.ocbLat, hl1.ocbLat]
  · rw [hl2.ocbMlt, hl1.ocbMlt]
  · rw [hk2.rc, hk1]
  · unfold coordsMissing at hthere ⊢
    rw [hl2.ocbLat, hl1.ocbLat, hl2.ocbMlt, hl1.ocbMlt, hk2.rc, hk1]
    exact hthere
  · rw [← (hO i hi).phi, ← (hO i hi).rho]; rfl
  · rw [← (hO i hi).phi, ← (hO i hi).rho]; rfl

/-- C169, refuted: in an array with a location of the boundary's hemisphere, the vectors at places of the other hemisphere
get no boundary coordinates but are turned towards the boundary's pole like the others. -/
theorem C169_other_hemisphere_refuted (conv : VD → Arr Tod → ℤ → Except PyErr VD) (D D' : DualObj) (O E : Rec) (k : ℤ)
    (hsel : selectPair D k = .ok D') (hD : PairOk D' O E) (s : DStore) (hs : s.WF D') (fresh : ℕ) (hem : ℤ)
    (times : List Tod) (t : Tod) (ht : pyIdx times D.recInd = .ok t) (v : VD) (m : ℕ) (ys : ℕ → Pt) (h : Holds v m ys)
    (hlat : v.lat = .many ((List.range m).map fun i => some (ys i).da))
    (hlt : v.lt = .many ((List.range m).map fun i => some (ys i).dl)) (hk : v.ocbInd = .one k)
    (hn : v.vectN.shape ≠ none) (hgap : coordsMissing v = true) (hf : v.scaleFunc = none)
    (hO : ∀ i, i < m → OfRec O k D'.ocbRecInd (ys i)) (hg : ∀ i, i < m → (ys i).Good (dualBnd D s fresh hem times))
    (a b : ℕ) (ha : a < m) (hb : b < m) (ρo ρe : ℝ) (hgood : GoodPt O E (ys a).da (ys a).dl ρo ρe)
    (hother : ¬ InHem D'.hem (ys b).da) :
    ∃ w L M, setOcb conv (dualBnd D s fresh hem times) none v = .ok (w, k) ∧ w.ocbLat = .many L ∧ w.ocbMlt = .many M ∧
      L[b]? = some none ∧ M[b]? = some none ∧
      (Reads w.ocbN m fun i =>
        some (towards (place (ys i).da (ys i).dl) (place (90 - O.rCent) (O.phiCent / 15))
          (horiz (ys i).da (ys i).dl (ys i).n (ys i).e))) ∧
      (Reads w.ocbE m fun i =>
        some (rightOf (place (ys i).da (ys i).dl) (place (90 - O.rCent) (O.phiCent / 15))
          (horiz (ys i).da (ys i).dl (ys i).n (ys i).e))) := by
  obtain ⟨w, out, h1, h2, h3, -, -, h4, h5, h6⟩ := set_dual conv D D' O E k hsel hD s hs fresh hem times t ht v m ys h hlat
    hlt hk hn hgap hf hO hg a ha ρo ρe hgood
  obtain ⟨ob, ob1, -, ob2⟩ := forall₂_at h4 (i := b) (show _ = some (some (ys b).da, some (ys b).dl) by simp [hb])
  obtain ⟨ob3, ob4, -⟩ := ob2 (by
    intro lat mlt e
    simp only [Prod.mk.injEq, Option.some.injEq] at e
    rw [← e.1]
    exact hother)
  refine ⟨w, _, _, h1, h2, h3, ?_, ?_, h5, h6⟩
  · rw [List.getElem?_map, ob1, ← ob3]; rfl
  · rw [List.getElem?_map, ob1, ← ob4]; rfl

/-! ### An example -/

/-- An OCB of radius 13 centred 5 degrees from the pole, on the meridian of 6 h. -/
noncomputable def sideOcb : Rec := ⟨90, 5, 13, fun _ => 0, 1, 74⟩

/-- An EAB of radius 25 centred 7 degrees from the pole, on the same meridian. -/
noncomputable def sideEab : Rec := ⟨90, 7, 25, fun _ => 0, 1, 64⟩

/-- Two OCB records and one EAB record; the only pair is the second OCB record with the EAB record. -/
noncomputable def sideDual : DualObj := ⟨[wideEab, sideOcb], [sideEab], [1], [0], 0, 1, 0, 1, 74, 64⟩

theorem sideDual_ok : PairOk sideDual sideOcb sideEab :=
  ⟨⟨by simp [sideDual], by simp [sideDual, DualObj.records], rfl, rfl, by simp [sideDual], by simp [sideDual], rfl, rfl⟩,
    ⟨.inl rfl, by norm_num [sideOcb], by rw [abs_lt]; constructor <;> norm_num [sideOcb]⟩,
    ⟨.inl rfl, by norm_num [sideEab], by rw [abs_lt]; constructor <;> norm_num [sideEab]⟩,
    fun _ => rfl, fun _ => rfl, rfl, rfl, rfl, rfl, by norm_num [sideDual], by norm_num [sideDual]⟩

theorem sideDual_sel : selectPair sideDual 0 = .ok sideDual := rfl

theorem side_cross (c r ref ρ : ℝ) (hc : 0 < c) (hr : c < r) (h0 : 0 ≤ ρ) (h : ρ ^ 2 + c ^ 2 = r ^ 2) :
    Crossings ⟨90, c, r, fun _ => 0, 1, ref⟩ 12 = {ρ} := by
  obtain ⟨x, -, -, h2⟩ := C29_pole_inside ⟨90, c, r, fun _ => 0, 1, ref⟩ 12
    (by rw [abs_of_pos hc]; simpa using hr)
  have : ρ ∈ Crossings ⟨90, c, r, fun _ => 0, 1, ref⟩ 12 := by
    refine ⟨h0, ?_⟩
    have ha : hourAngle 12 - 90 * Real.pi / 180 = Real.pi / 2 := by unfold hourAngle; ring
    simp only [polarDist2, ha, Real.cos_pi_div_two]
    linarith
  rw [h2, Set.mem_singleton_iff] at this
  rw [h2, this]

theorem side_good (lat : ℝ) (h0 : 0 < lat) (h1 : lat ≤ 90) : GoodPt sideOcb sideEab lat 12 12 24 := by
  refine ⟨(sign_hem lat h0).1, by rwa [abs_of_pos h0], ?_, ?_, ?_, ?_, by norm_num, by norm_num⟩
  · norm_num [sideOcb]
  · norm_num [sideEab]
  · exact side_cross 5 13 74 12 (by norm_num) (by norm_num) (by norm_num) (by norm_num)
  · exact side_cross 7 25 64 24 (by norm_num) (by norm_num) (by norm_num) (by norm_num)

/-- A vector at noon and 80 degrees and one at noon and latitude `x`. -/
noncomputable def sidePt (x : ℝ) : ℕ → Pt
  | 0 => { da := 80, dl := 12, n := 50, e := 86, z := 5, rc := 0, k := 0, j := 1, r := 13, phi := 90, rho := 5 }
  | _ => { da := x, dl := 12, n := -20, e := 3, z := 1, rc := 0, k := 0, j := 1, r := 13, phi := 90, rho := 5 }

/-- The object with these vectors, without boundary coordinates. -/
noncomputable def sideVD (x : ℝ) : VD :=
  { datInd := .many [0, 1], ocbInd := .one 0
    lat := .many ((List.range 2).map fun i => some (sidePt x i).da)
    lt := .many ((List.range 2).map fun i => some (sidePt x i).dl)
    height := .many [some 350, some 350]
    vectN := .many ((List.range 2).map fun i => some (sidePt x i).n)
    vectE := .many ((List.range 2).map fun i => some (sidePt x i).e)
    vectZ := .many ((List.range 2).map fun i => some (sidePt x i).z)
    vectMag := .many [none, none], locCoord := "magnetic", vectCoord := "magnetic"
    ocbLat := .many [none, none], ocbMlt := .many [none, none], rCorr := .many [none, none], vshape := some 2
    ocbN := .many [none, none], ocbE := .many [none, none], ocbZ := .many [none, none], ocbMag := .many [none, none]
    ocbQuad := .many [0, 0], vecQuad := .many [0, 0], poleAngle := .many [none, none], aacgmLat := .many [none, none]
    aacgmMlt := .many [none, none], unscaledR := none, scaledR := none, scaleFunc := none }

theorem side_of (x : ℝ) (i : ℕ) : OfRec sideOcb 0 sideDual.ocbRecInd (sidePt x i) := by
  cases i <;> exact ⟨rfl, rfl, rfl, rfl, rfl, rfl⟩

theorem side_pt (x : ℝ) (hx : |x| < 90) (s : DStore) (fresh : ℕ) (hem : ℤ) (times : List Tod) (i : ℕ) :
    (sidePt x i).Good (dualBnd sideDual s fresh hem times) := by
  cases i with
  | zero =>
    refine ⟨⟨rfl, rfl, rfl, rfl, ?_, ?_, ?_⟩, fun k hk => ?_, ?_⟩
    · norm_num [sidePt]
    · norm_num [sidePt]
    · norm_num [sidePt]
    · exact not_twelfth (x := 6) (by norm_num) (by norm_num) (k + 1) (by simp only [sidePt] at hk; push_cast; linarith)
    · norm_num [sidePt]
  | succ n =>
    refine ⟨⟨rfl, rfl, rfl, rfl, hx, ?_, ?_⟩, fun k hk => ?_, ?_⟩
    · norm_num [sidePt]
    · norm_num [sidePt]
    · exact not_twelfth (x := 6) (by norm_num) (by norm_num) (k + 1) (by simp only [sidePt] at hk; push_cast; linarith)
    · norm_num [sidePt]

theorem side_holds (x : ℝ) : Holds (sideVD x) 2 (sidePt x) :=
  ⟨.inr rfl, .inl ⟨0, rfl, fun i _ => by cases i <;> rfl⟩, .inr rfl, .inr rfl, .inr rfl, .inr rfl, .inr rfl, rfl, rfl⟩

theorem side_store : (⟨fun _ => [], none, none, none, none⟩ : DStore).WF sideDual :=
  ⟨⟨by simp [DStore.ocb], by simp [DStore.ocb]⟩, ⟨by simp [DStore.eab], by simp [DStore.eab]⟩,
    ⟨by simp [DStore.ocb], by simp [DStore.ocb, Store.slot, Store.slotMlt]⟩,
    ⟨by simp [DStore.eab], by simp [DStore.eab, Store.slot, Store.slotMlt]⟩⟩

/-- The result for these vectors. -/
theorem side_set (conv : VD → Arr Tod → ℤ → Except PyErr VD) (t : Tod) (x : ℝ) (hx : |x| < 90) :
    ∃ w out, setOcb conv (dualBnd sideDual ⟨fun _ => [], none, none, none, none⟩ 0 1 [t]) none (sideVD x) = .ok (w, 0) ∧
      w.ocbLat = .many (out.map (·.1)) ∧ w.rCorr = .many (out.map (·.2.2.2)) ∧ coordsMissing w = false ∧
      List.Forall₂ (DualOut sideDual sideOcb sideEab)
        ((List.range 2).map fun i => (some (sidePt x i).da, some (sidePt x i).dl)) out := by
  obtain ⟨w, out, h1, h2, -, h3, h4, h5, -⟩ := set_dual conv sideDual sideDual sideOcb sideEab 0 sideDual_sel sideDual_ok _ side_store 0 1 [t] t rfl (sideVD x) 2
    (sidePt x) (side_holds x) rfl rfl rfl (by simp [sideVD, Arr.shape]) rfl rfl (fun i _ => side_of x i)
    (fun i _ => side_pt x hx _ 0 1 [t] i) 0 (by norm_num) 12 24 (side_good 80 (by norm_num) (by norm_num))
  exact ⟨w, out, h1, h2, h3, h4, h5⟩

/-- The hypotheses of C169 are met: of the first theorem with a second vector at 70 degrees, of the other one with a
second vector at -70 degrees. -/
example (conv : VD → Arr Tod → ℤ → Except PyErr VD) (t : Tod) :
    (∃ w, setOcb conv (dualBnd sideDual ⟨fun _ => [], none, none, none, none⟩ 0 1 [t]) none (sideVD 70) = .ok (w, 0) ∧
      coordsMissing w = false) ∧
    (∃ pts, Locs (sideVD 70) pts ∧ ∀ p ∈ pts, ∃ y, p.1 = some y ∧ InHem sideDual.hem y) ∧
    ¬ InHem sideDual.hem (sidePt (-70) 1).da := by
  refine ⟨?_, ⟨_, .array _ _ (by simp) rfl rfl, ?_⟩, ?_⟩
  · obtain ⟨w, out, h1, -, -, h2, -⟩ := side_set conv t 70 (by norm_num)
    exact ⟨w, h1, h2⟩
  · intro p hp
    simp only [List.range_succ, List.range_zero, List.nil_append, List.cons_append, List.map_cons, List.map_nil,
      List.zip_cons_cons, List.zip_nil_right, List.mem_cons, List.not_mem_nil, or_false] at hp
    rcases hp with rfl | rfl
    · exact ⟨_, rfl, (sign_hem 80 (by norm_num)).1⟩
    · exact ⟨_, rfl, (sign_hem 70 (by norm_num)).1⟩
  · intro h
    unfold InHem at h
    norm_num [sidePt, sideDual] at h

/-! ## C170 -/

theorem fill_ind {b : Bnd} {v w : VD} {c k : ℤ} (hk : v.ocbInd = .one k) (h : fillCoords b v = .ok (w, c)) : w.ocbInd = .one k := by
  unfold fillCoords at h
  rw [hk] at h
  simp only [bind, Except.bind, pure, Except.pure] at h
  repeat' split at h
  all_goals first | contradiction | skip
  · cases h
    rfl
  · cases h
    exact hk

/-- The radii that `set_ocb` uses for one pair: those of the polar cap, wherever the vectors are. -/
theorem radii_used {conv : VD → Arr Tod → ℤ → Except PyErr VD} {D D' : DualObj} {O E : Rec} {k : ℤ}
    (hsel : selectPair D k = .ok D') (hD : PairOk D' O E) {s : DStore} {fresh : ℕ} {hem : ℤ} {times : List Tod}
    {f : Option (F → F → F → F)} {v w : VD} {c : ℤ} (hk : v.ocbInd = .one k) (hm : v.vectCoord = "magnetic")
    (h : setOcb conv (dualBnd D s fresh hem times) f v = .ok (w, c)) (hw : coordsMissing w = false) :
    w.unscaledR = some (w.rCorr.map fun x => x.map (O.r + ·)) ∧
      w.scaledR = some (.full w.rCorr.shape (some (90 - |D.ocbLat|))) := by
  obtain ⟨q1, q2, -, q3, -, q5⟩ := selectPair_ok hsel hD.sel.pos hD.sel.lt
  unfold setOcb at h
  simp only [bind, Except.bind, pure, Except.pure, hm, ne_eq, not_true_eq_false, if_false] at h
  split at h
  · cases h
  cases hfill : fillCoords (dualBnd D s fresh hem times) v with
  | error e => rw [hfill] at h; cases h
  | ok p =>
    obtain ⟨v1, c1⟩ := p
    rw [hfill] at h
    simp only at h
    split_ifs at h with hmiss
    · cases h
      rw [hmiss] at hw
      cases hw
    · cases hp : poleStep (dualBnd D s fresh hem times) v1 with
      | error e => rw [hp] at h; cases h
      | ok v2 =>
        rw [hp] at h
        simp only at h
        cases hr : rotateStep f v2 with
        | error e => rw [hr] at h; cases h
        | ok v3 =>
          rw [hr] at h
          cases h
          have hkeep := rotate_keepsR hr
          have hc : circleInd (dualBnd D s fresh hem times) v1 = .ok (.one D'.ocbRecInd) := by
            unfold circleInd
            simp only [dualBnd, fill_ind hk hfill]
            show (pyIdx D.ocbInd k).map Arr.one = _
            rw [q5]
            rfl
          have hrec : pyIdx D.ocbRecs D'.ocbRecInd = .ok O := by
            have h2 := hD.sel.oRec
            rw [q1] at h2
            exact pyIdx_pos hD.sel.oPos h2
          have hrad : idxArr (D.ocbRecs.map Rec.r) (.one D'.ocbRecInd) = .ok (.one O.r) := by
            show (pyIdx _ _).map Arr.one = _
            have h2 := hD.sel.oRec
            rw [q1] at h2
            rw [pyIdx_pos (a := O.r) hD.sel.oPos (by rw [List.getElem?_map, h2]; rfl)]
            rfl
          unfold poleStep at hp
          rw [hc] at hp
          simp only [bind, Except.bind, pure, Except.pure] at hp
          rw [show (dualBnd D s fresh hem times).r = D.ocbRecs.map Rec.r from rfl, hrad] at hp
          simp only at hp
          have hz : (Arr.one O.r).zip v1.rCorr = .ok (v1.rCorr.map fun x => (O.r, x)) := by
            cases v1.rCorr <;> rfl
          rw [hz] at hp
          simp only at hp
          repeat' split at hp
          all_goals first | contradiction | skip
          cases hp
          rw [hkeep.u, hkeep.s, hkeep.rc]
          refine ⟨?_, ?_⟩
          · simp only [Option.some.injEq]
            cases v1.rCorr <;> simp [Arr.map]
          · simp only [Option.some.injEq, dualBnd]
            cases v1.rCorr <;> simp [Arr.map, Arr.shape]

/-- `calc_r` for the selected pair. -/
theorem calcR_pair {D : DualObj} {O E : Rec} (hD : PairOk D O E) (s : DStore) (hs : s.WF D) (pts : List (F × F)) (ref : ℕ)
    (hl : (s.heap ref).length = pts.length) (ow : Bool) :
    ∃ rs s', Coord.calcR D s pts ref ow = .ok (rs, s') ∧ ∀ (i : ℕ) (p : F × F), pts[i]? = some p → ∃ ob eb,
      rs[i]? = some (calcREntry D p.1 (p.2.map (O.r + ·)) ob eb) := by
  obtain ⟨s', b1, -⟩ := boundStep_out hD.sel hD.oDaily hD.eDaily s hs ref ow
  have h1 : pyIdx D.ocbInd D.recInd = .ok D.ocbRecInd := pyIdx_pos hD.sel.pos hD.sel.oInd
  have h2 : pyIdx D.ocbRecs D.ocbRecInd = .ok O := pyIdx_pos hD.sel.oPos hD.sel.oRec
  unfold Coord.calcR
  rw [if_neg (by have := hD.sel.pos; have := hD.sel.lt; omega), h1]
  simp only [bind, Except.bind]
  rw [h2]
  simp only
  rw [b1]
  refine ⟨_, _, rfl, fun i p hp => ?_⟩
  have hi : i < pts.length := (List.getElem?_eq_some_iff.1 hp).1
  have hi' : i < (s.heap ref).length := by omega
  refine ⟨((s.heap ref)[i]).bind (bLat O), ((s.heap ref)[i]).bind (bLat E), ?_⟩
  simp only [List.getElem?_map, List.zip_map']
  rw [List.getElem?_eq_some_iff.2 ⟨by simp; omega, rfl⟩]
  obtain ⟨_, hp'⟩ := List.getElem?_eq_some_iff.1 hp
  simp [hp']

/-- The entries of the radii of an object. -/
structure RadiiAt (w : VD) (i : ℕ) (scaled unscaled : F) : Prop where
  s : ∃ S, w.scaledR = some S ∧ S.entries[i]? = some scaled
  u : ∃ U, w.unscaledR = some U ∧ U.entries[i]? = some unscaled

theorem radii_at {w : VD} {r l : ℝ} (u1 : w.unscaledR = some (w.rCorr.map fun x => x.map (r + ·)))
    (u2 : w.scaledR = some (.full w.rCorr.shape (some l))) {i : ℕ} {x : F} (hx : w.rCorr.entries[i]? = some x) :
    RadiiAt w i (some l) (x.map (r + ·)) := by
  have hlen : i < w.rCorr.entries.length := (List.getElem?_eq_some_iff.1 hx).1
  refine ⟨⟨_, u2, ?_⟩, _, u1, ?_⟩
  · cases hr : w.rCorr with
    | one y => rw [hr] at hlen; simp [Arr.entries] at hlen; subst hlen; rfl
    | many l =>
      rw [hr] at hlen
      show (List.replicate l.length _)[i]? = _
      rw [List.getElem?_replicate, if_pos (show i < l.length from hlen)]
  · cases hr : w.rCorr with
    | one y =>
      rw [hr] at hlen hx
      simp [Arr.entries] at hlen
      subst hlen
      cases hx
      rfl
    | many l =>
      rw [hr] at hx
      show (l.map _)[i]? = _
      rw [List.getElem?_map, show l[i]? = some x from hx]
      rfl

/-- C170, for vectors poleward of the OCB: the radii with which `set_ocb` scales are those of `calc_r`. -/
theorem C170_poleward_partial (conv : VD → Arr Tod → ℤ → Except PyErr VD) (D D' : DualObj) (O E : Rec) (k : ℤ)
    (hsel : selectPair D k = .ok D') (hD : PairOk D' O E) (s : DStore) (fresh : ℕ) (hem : ℤ) (times : List Tod)
    (f : Option (F → F → F → F)) (v w : VD) (c : ℤ) (hk : v.ocbInd = .one k) (hm : v.vectCoord = "magnetic")
    (h : setOcb conv (dualBnd D s fresh hem times) f v = .ok (w, c)) (hw : coordsMissing w = false)
    (t : DStore) (ht : t.WF D') (ref : ℕ) (ow : Bool)
    (hl : (t.heap ref).length = (w.ocbLat.entries.zip w.rCorr.entries).length) :
    ∃ rs t', Coord.calcR D' t (w.ocbLat.entries.zip w.rCorr.entries) ref ow = .ok (rs, t') ∧
      ∀ i b x, w.ocbLat.entries[i]? = some (some b) → w.rCorr.entries[i]? = some x → |D.ocbLat| ≤ |b| →
        ∃ S U, rs[i]? = some (S, U) ∧ RadiiAt w i S U := by
  obtain ⟨q1, q2, q4, q3, -, q5⟩ := selectPair_ok hsel hD.sel.pos hD.sel.lt
  obtain ⟨u1, u2⟩ := radii_used hsel hD hk hm h hw
  obtain ⟨rs, t', c1, c2⟩ := calcR_pair hD t ht _ ref hl ow
  refine ⟨rs, t', c1, fun i b x hb hx hpole => ?_⟩
  obtain ⟨ob, eb, e⟩ := c2 i (some b, x) (List.getElem?_zip_eq_some.2 ⟨hb, hx⟩)
  refine ⟨some (90 - |D.ocbLat|), x.map (O.r + ·), ?_, radii_at u1 u2 hx⟩
  rw [e]
  unfold calcREntry
  simp only [q2]
  have ho : |D'.eabLat| < |D.ocbLat| := by rw [← q2]; exact hD.order
  rw [if_neg (by linarith), if_neg (by linarith)]

/-- C170, refuted: for vectors equatorward of the OCB `set_ocb` uses the radii of the polar cap, `calc_r` those of the
region of the location; already the reference radii differ, unless the reference latitudes happen to divide the
hemisphere into regions of equal width. -/
theorem C170_outside_refuted (conv : VD → Arr Tod → ℤ → Except PyErr VD) (D D' : DualObj) (O E : Rec) (k : ℤ)
    (hsel : selectPair D k = .ok D') (hD : PairOk D' O E) (s : DStore) (fresh : ℕ) (hem : ℤ) (times : List Tod)
    (f : Option (F → F → F → F)) (v w : VD) (c : ℤ) (hk : v.ocbInd = .one k) (hm : v.vectCoord = "magnetic")
    (h : setOcb conv (dualBnd D s fresh hem times) f v = .ok (w, c)) (hw : coordsMissing w = false)
    (t : DStore) (ht : t.WF D') (ref : ℕ) (ow : Bool)
    (hl : (t.heap ref).length = (w.ocbLat.entries.zip w.rCorr.entries).length)
    (h1 : |D.ocbLat - D.eabLat| ≠ 90 - |D.ocbLat|) (h2 : |D.eabLat| ≠ 90 - |D.ocbLat|) :
    ∃ rs t', Coord.calcR D' t (w.ocbLat.entries.zip w.rCorr.entries) ref ow = .ok (rs, t') ∧
      ∀ i b x, w.ocbLat.entries[i]? = some (some b) → w.rCorr.entries[i]? = some x → |b| < |D.ocbLat| →
        ∃ S U S' U', rs[i]? = some (some S, U) ∧ RadiiAt w i (some S') U' ∧ S ≠ S' ∧ S' = 90 - |D.ocbLat| ∧
          U' = x.map (O.r + ·) ∧ (|D.eabLat| ≤ |b| → S = |D.ocbLat - D.eabLat|) ∧ (|b| < |D.eabLat| → S = |D.eabLat|) := by
  obtain ⟨q1, q2, q4, q3, -, q5⟩ := selectPair_ok hsel hD.sel.pos hD.sel.lt
  obtain ⟨u1, u2⟩ := radii_used hsel hD hk hm h hw
  obtain ⟨rs, t', c1, c2⟩ := calcR_pair hD t ht _ ref hl ow
  refine ⟨rs, t', c1, fun i b x hb hx hout => ?_⟩
  obtain ⟨ob, eb, e⟩ := c2 i (some b, x) (List.getElem?_zip_eq_some.2 ⟨hb, hx⟩)
  have hR := radii_at u1 u2 hx
  unfold calcREntry at e
  simp only [q2, q4] at e
  by_cases hlow : |b| < |D.eabLat|
  · rw [if_pos hlow] at e
    exact ⟨_, _, _, _, e, hR, h2, rfl, rfl, fun hc => absurd hlow (not_lt.2 hc), fun _ => rfl⟩
  · rw [if_neg hlow, if_pos hout] at e
    exact ⟨_, _, _, _, e, hR, h1, rfl, rfl, fun _ => rfl, fun hc => absurd hc hlow⟩

/-- The hypotheses of C170 are met: the vector at 80 degrees is poleward of the OCB, that at 70 degrees is between the
boundaries; the two radii 16 and 10 differ. -/
example (conv : VD → Arr Tod → ℤ → Except PyErr VD) (t : Tod) :
    ∃ w b b', setOcb conv (dualBnd sideDual ⟨fun _ => [], none, none, none, none⟩ 0 1 [t]) none (sideVD 70) = .ok (w, 0) ∧
      coordsMissing w = false ∧ w.ocbLat.entries = [some b, some b'] ∧ w.rCorr.entries = [some 0, some 0] ∧
      |sideDual.ocbLat| ≤ |b| ∧ |b'| < |sideDual.ocbLat| ∧ |sideDual.ocbLat - sideDual.eabLat| = 10 ∧
      90 - |sideDual.ocbLat| = 16 := by
  obtain ⟨w, out, h1, h2, h3, h4, h5⟩ := side_set conv t 70 (by norm_num)
  have hl : out.length = 2 := by rw [← h5.length_eq]; simp
  obtain ⟨o0, e0, f0, -⟩ := forall₂_at h5 (i := 0) (show _ = some (some (80 : ℝ), some (12 : ℝ)) by simp [sidePt])
  obtain ⟨o1, e1, f1, -⟩ := forall₂_at h5 (i := 1) (show _ = some (some (70 : ℝ), some (12 : ℝ)) by simp [sidePt])
  obtain ⟨x0, L0, M0, -, rfl, p0⟩ := f0 _ _ 12 24 rfl (side_good 80 (by norm_num) (by norm_num))
  obtain ⟨x1, L1, M1, -, rfl, p1⟩ := f1 _ _ 12 24 rfl (side_good 70 (by norm_num) (by norm_num))
  obtain ⟨c0, c1⟩ : colat sideDual.hem 80 = 10 ∧ colat sideDual.hem 70 = 20 := by
    constructor <;> norm_num [colat, sideDual]
  have q0 := (p0.1 (by rw [c0]; norm_num)).2
  have q1 := p1.2.1 (by rw [c1]; norm_num) (by rw [c1]; norm_num)
  rw [c1] at q1
  norm_num [sideDual] at q0 q1
  match out, hl, e0, e1 with
  | [_, _], _, e0, e1 =>
    cases e0
    cases e1
    refine ⟨w, _, _, h1, h4, by rw [h2]; rfl, by rw [h3]; rfl, ?_, ?_, ?_, ?_⟩
    · norm_num [sideDual]
      exact le_trans q0 (le_abs_self _)
    · rw [q1]
      norm_num [sideDual]
    · norm_num [sideDual]
    · norm_num [sideDual]

end Ocb.Scale
