import Verif.Lemmas.Dual

/-!
# Claims about dual-boundary coordinates: C35 to C39

Distances are colatitudes on the meridian of the location: `c` for the location, `ρo` and `ρe` for the places where the
meridian crosses the two boundary circles.
-/

set_option autoImplicit false

namespace Ocb.Coord

open Real

/-- What the constructor and `set_good_ind` establish: a selected pair, members of one hemisphere, references in order.
The radius corrections have a period of one day. -/
structure PairOk (D : DualObj) (O E : Rec) : Prop where
  sel : Sel D O E
  oValid : O.Valid
  eValid : E.Valid
  oDaily : O.Daily
  eDaily : E.Daily
  oHem : O.hem = D.hem
  eHem : E.hem = D.hem
  oLat : O.blat = D.ocbLat
  eLat : E.blat = D.eabLat
  ePos : 0 < |D.eabLat|
  order : |D.eabLat| < |D.ocbLat|

/-- A location of the hemisphere, with the magnetic pole inside both circles, the EAB nowhere poleward of the OCB on the
meridian and poleward of the equator. -/
structure GoodPt (O E : Rec) (lat mlt ρo ρe : ℝ) : Prop where
  hem : InHem O.hem lat
  bound : |lat| ≤ 90
  oIn : |O.rCent| < O.r + O.rf mlt
  eIn : |E.rCent| < E.r + E.rf mlt
  oCross : Crossings O mlt = {ρo}
  eCross : Crossings E mlt = {ρe}
  order : ρo ≤ ρe
  equator : ρe < 90

theorem InHem.abs {hem lat : ℝ} (h : InHem hem lat) : hem * lat = |lat| := by
  unfold InHem at h; rw [← h, sign_mul_self]

theorem InHem.pos {hem lat : ℝ} (h : InHem hem lat) (hh : hem = 1 ∨ hem = -1) : 0 < |lat| := by
  rw [abs_pos]
  rintro rfl
  unfold InHem at h
  simp only [sign_zero, SignType.coe_zero] at h
  rcases hh with h' | h' <;> rw [h'] at h <;> norm_num at h

theorem inHem_of {hem lat : ℝ} (hh : hem = 1 ∨ hem = -1) (h : 0 < hem * lat) : InHem hem lat := by
  unfold InHem
  rcases hh with h' | h' <;> rw [h'] at h ⊢
  · rw [sign_pos (by linarith)]; rfl
  · rw [sign_neg (by linarith)]; rfl

/-- With the pole inside the circle, "inside the circle" and "poleward of the crossing" are the same. -/
theorem inside_iff (B : Rec) (lat mlt ρ : ℝ) (hin : |B.rCent| < B.r + B.rf mlt) (hρ : Crossings B mlt = {ρ})
    (hc : 0 ≤ colat B.hem lat) : distCentre B lat mlt ≤ B.r + B.rf mlt ↔ colat B.hem lat ≤ ρ := by
  obtain ⟨h0, h1⟩ : ρ ∈ Crossings B mlt := by rw [hρ]; rfl
  set R := B.r + B.rf mlt
  set c := colat B.hem lat with hcdef
  have hR : 0 < R := lt_of_le_of_lt (abs_nonneg _) hin
  have hRR : B.rCent ^ 2 < R ^ 2 := sq_lt_sq' (by linarith [neg_abs_le B.rCent]) (by linarith [le_abs_self B.rCent])
  unfold distCentre
  rw [← hcdef, ← Real.sqrt_sq hR.le, Real.sqrt_le_sqrt_iff (by positivity)]
  unfold polarDist2 at h1 ⊢
  set q := Real.cos (hourAngle mlt - B.phiCent * π / 180)
  have hρpos : 0 < ρ := by
    rcases h0.lt_or_eq with h | h
    · exact h
    · exfalso; rw [← h] at h1; nlinarith
  have hother : 0 < c + ρ - 2 * B.rCent * q := by
    have : ρ * (ρ - 2 * B.rCent * q) = R ^ 2 - B.rCent ^ 2 := by linear_combination h1
    have h2 : 0 < ρ - 2 * B.rCent * q := by
      by_contra hcon
      have := mul_nonpos_of_nonneg_of_nonpos hρpos.le (not_lt.1 hcon)
      linarith
    linarith
  have key : c ^ 2 + B.rCent ^ 2 - 2 * c * B.rCent * q - R ^ 2 = (c - ρ) * (c + ρ - 2 * B.rCent * q) := by
    linear_combination h1
  constructor
  · intro h
    by_contra hcon
    have := mul_pos (sub_pos.2 (not_le.1 hcon)) hother
    linarith
  · intro h
    have := mul_nonpos_of_nonpos_of_nonneg (sub_nonpos.2 h) hother.le
    linarith

theorem bLat_cross (B : Rec) (mlt ρ : ℝ) (hin : |B.rCent| < B.r + B.rf mlt) (hρ : Crossings B mlt = {ρ}) :
    bLat B mlt = some (B.hem * (90 - ρ)) ∧ 0 < ρ := by
  obtain ⟨ρ', h0, h1, h2⟩ := C29_pole_inside B mlt hin
  rw [hρ, Set.singleton_eq_singleton_iff] at h2
  subst h2
  rw [boundaryLat_bLat] at h1
  exact ⟨by simpa using h1, h0⟩

/-! ### One location -/

/-- The piecewise linear map of the claim, in degrees from the equator: `x` is the dual latitude, `L` the OCB latitude,
`rO` and `rE` the reference latitudes. -/
def Piecewise (rO rE ρo ρe c L x : ℝ) : Prop :=
  (c ≤ ρo → x = L ∧ rO ≤ x) ∧ (ρo < c → c ≤ ρe → x = rE + (rO - rE) * ((ρe - c) / (ρe - ρo))) ∧
    (ρe < c → x = rE * ((90 - c) / (90 - ρe)))

/-- The numbers that occur for a good location. -/
structure Facts (D : DualObj) (O E : Rec) (lat mlt ρo ρe L M : ℝ) : Prop where
  norm : normalPt O lat mlt = .ok (L, M, O.rf mlt)
  cpos : 0 ≤ colat D.hem lat
  clt : colat D.hem lat < 90
  latEq : lat = D.hem * (90 - colat D.hem lat)
  abslat : |lat| = 90 - colat D.hem lat
  ob : bLat O mlt = some (D.hem * (90 - ρo))
  eb : bLat E mlt = some (D.hem * (90 - ρe))
  absob : |D.hem * (90 - ρo)| = 90 - ρo
  abseb : |D.hem * (90 - ρe)| = 90 - ρe
  rpos : 0 < ρo
  inside : |D.ocbLat| ≤ D.hem * L ↔ colat D.hem lat ≤ ρo
  range : 0 ≤ M ∧ M < 24

theorem facts {D : DualObj} {O E : Rec} (hD : PairOk D O E) {lat mlt ρo ρe : ℝ} (hp : GoodPt O E lat mlt ρo ρe) :
    ∃ L M, Facts D O E lat mlt ρo ρe L M := by
  have hR : 0 < O.r + O.rf mlt := lt_of_le_of_lt (abs_nonneg _) hp.oIn
  obtain ⟨L, M, h1, h2, h3, h4, -⟩ := C24_boundary_circle O hD.oValid lat mlt hR
  have hn := normalPt_ok O lat mlt
  rw [h1] at hn
  simp only [Except.ok.injEq, Prod.mk.injEq] at hn
  have hem1 : D.hem = 1 ∨ D.hem = -1 := by rw [← hD.oHem]; exact hD.oValid.hem
  have habs : ∀ x : ℝ, 0 ≤ x → |D.hem * x| = x := by
    intro x hx
    rcases hem1 with h | h <;> rw [h]
    · rw [one_mul, abs_of_nonneg hx]
    · rw [neg_one_mul, abs_neg, abs_of_nonneg hx]
  have hin := hp.hem
  rw [hD.oHem] at hin
  have ha := hin.abs
  have hpos := hin.pos hem1
  have hb1 := bLat_cross O mlt ρo hp.oIn hp.oCross
  have hb2 := bLat_cross E mlt ρe hp.eIn hp.eCross
  have hin' := inside_iff O lat mlt ρo hp.oIn hp.oCross (by unfold colat; rw [hD.oHem, ha]; linarith [hp.bound])
  refine ⟨L, M, h1, by unfold colat; rw [ha]; linarith [hp.bound], by unfold colat; rw [ha]; linarith, ?_,
    by unfold colat; rw [ha]; ring, by rw [hb1.1, hD.oHem], by rw [hb2.1, hD.eHem],
    habs _ (by linarith [hp.order, hp.equator]), habs _ (by linarith [hp.equator]), hb1.2, ?_, ?_⟩
  · rw [← hD.oHem, hem_colat hD.oValid]
  · rw [← hD.oHem, ← hin', ← hD.oLat, ← hD.oValid.hem_blat, ← not_lt, ← not_lt, h4]
  · rw [hn.2.1]; exact hoursOf_range _ _

/-- The dual latitude of a good location, whatever the other locations of the array are. -/
theorem dualEntry_good {D : DualObj} {O E : Rec} (hD : PairOk D O E) {lat mlt ρo ρe L M : ℝ}
    (hp : GoodPt O E lat mlt ρo ρe) (hf : Facts D O E lat mlt ρo ρe L M) (bad : Bool) :
    ∃ x, dualEntry D bad (some lat) (some L) (bLat O mlt) (bLat E mlt) = some (D.hem * x) ∧
      Piecewise |D.ocbLat| |D.eabLat| ρo ρe (colat D.hem lat) (D.hem * L) x := by
  have hem1 : D.hem * D.hem = 1 := by rw [← hD.oHem]; exact hD.oValid.hem_sq
  have hO : D.ocbLat = D.hem * |D.ocbLat| := by
    rw [← hD.oLat, ← hD.oValid.hem_blat, hD.oHem, ← mul_assoc, hem1, one_mul]
  have hE : D.eabLat = D.hem * |D.eabLat| := by
    rw [← hD.eLat, ← hD.eValid.hem_blat, hD.eHem, ← mul_assoc, hem1, one_mul]
  have hne : D.hem ≠ 0 := by rintro h; rw [h] at hem1; norm_num at hem1
  rw [hf.ob, hf.eb]
  unfold dualEntry
  simp only [absLt, absGe, hf.abslat, hf.absob, hf.abseb]
  set c := colat D.hem lat with hcdef
  have hlat := hf.latEq
  rw [← hcdef] at hlat
  by_cases h1 : ρe < c
  · rw [if_pos (by simpa using h1)]
    refine ⟨|D.eabLat| * ((90 - c) / (90 - ρe)), ?_, fun h => ?_, fun h h' => ?_, fun _ => rfl⟩
    · have h90 : 90 - ρe ≠ 0 := by linarith [hp.equator]
      congr 1
      generalize |D.eabLat| = p at hE ⊢
      rw [hE, hlat]
      field_simp
      ring
    · exact absurd (le_trans h hp.order) (not_le.2 h1)
    · exact absurd h' (not_le.2 h1)
  · rw [if_neg (by simpa using h1)]
    by_cases h2 : ρo < c
    · rw [if_pos (by simp only [Bool.and_eq_true, decide_eq_true_eq]; constructor <;> linarith)]
      refine ⟨|D.eabLat| + (|D.ocbLat| - |D.eabLat|) * ((ρe - c) / (ρe - ρo)), ?_, fun h => ?_, fun _ _ => rfl,
        fun h => absurd h h1⟩
      · have h90 : ρe - ρo ≠ 0 := by linarith
        congr 1
        rw [show D.hem * (90 - ρo) - D.hem * (90 - ρe) = D.hem * (ρe - ρo) by ring]
        generalize |D.eabLat| = p at hE ⊢
        generalize |D.ocbLat| = q at hO ⊢
        rw [hO, hE, hlat]
        field_simp
        ring
      · exact absurd h (not_le.2 h2)
    · rw [if_neg (by simp only [Bool.and_eq_true, decide_eq_true_eq]; rintro ⟨h, -⟩; linarith)]
      have h3 := hf.inside.2 (not_lt.1 h2)
      have h4 : |D.ocbLat| ≤ |L| := by
        refine le_trans h3 ?_
        rcases hD.oValid.hem with h | h <;> rw [hD.oHem] at h <;> rw [h]
        · rw [one_mul]; exact le_abs_self L
        · rw [neg_one_mul]; exact neg_le_abs L
      refine ⟨D.hem * L, by simp [h4, ← mul_assoc, hem1], fun _ => ⟨rfl, h3⟩, fun h => absurd h h2, fun h => absurd h h1⟩

theorem dualEntry_none (D : DualObj) (bad : Bool) (ob eb : Option ℝ) : dualEntry D bad none none ob eb = none := by
  unfold dualEntry
  simp

/-! ### Whole arrays -/

theorem normalArr_map (B : Rec) (hB : B.Valid) : ∃ f, (∀ p, NormalOut B p (f p)) ∧
    ∀ pts : List (Option ℝ × Option ℝ), (∃ p ∈ pts, ∃ lat, p.1 = some lat ∧ InHem B.hem lat) →
      normalArr (some B) pts = .ok (pts.map f, pts.map fun p => if wrongHem B.hem p.1 then none else p.1) := by
  choose f hf using normalEntry_out B hB
  refine ⟨f, fun p => (hf p).2, ?_⟩
  rintro pts ⟨p, hp, lat, h1, h2⟩
  unfold normalArr
  simp only []
  rw [if_neg]
  · simp only [bind, Except.bind, pure, Except.pure]
    rw [mapE_map (g := f) (fun a _ => (hf a).1), List.map_map]
    rfl
  · rw [Bool.and_eq_true, not_and]
    intro _ h
    rw [List.all_eq_true] at h
    have := h p.1 (List.mem_map.2 ⟨p, hp, rfl⟩)
    rw [(wrongHem_iff _ _).2 ⟨lat, h1, h2⟩] at this
    cases this

theorem normalArr_nan (B : Rec) (pts : List (Option ℝ × Option ℝ))
    (h : ∀ p ∈ pts, ∀ lat, p.1 = some lat → ¬ InHem B.hem lat) :
    ∃ out lats, normalArr (some B) pts = .ok (out, lats) ∧ out = pts.map fun _ => (none, none, none) := by
  cases pts with
  | nil => exact ⟨[], [], rfl, rfl⟩
  | cons p ps =>
    have hw : ∀ l ∈ (p :: ps).map (·.1), wrongHem B.hem l = true := by
      intro l hl
      obtain ⟨q, hq, rfl⟩ := List.mem_map.1 hl
      rw [← Bool.not_eq_false, wrongHem_iff]
      rintro ⟨lat, h1, h2⟩
      exact h q hq lat h1 h2
    refine ⟨_, (p :: ps).map (·.1), ?_, rfl⟩
    unfold normalArr
    simp only []
    rw [if_pos]
    rw [Bool.and_eq_true, List.all_eq_true, List.any_eq_true]
    exact ⟨⟨p.1, by simp, hw _ (by simp)⟩, hw⟩

/-- What the dual `normal_coord` owes for one location: the piecewise linear latitude together with the OCB coordinates
for a good location, NaN for a location without numbers or of the wrong hemisphere. -/
def DualOut (D : DualObj) (O E : Rec) (p : Option ℝ × Option ℝ) (o : Option ℝ × Option ℝ × Option ℝ × Option ℝ) : Prop :=
  (∀ lat mlt ρo ρe, p = (some lat, some mlt) → GoodPt O E lat mlt ρo ρe →
    ∃ x L M, normalPt O lat mlt = .ok (L, M, O.rf mlt) ∧ o = (some (D.hem * x), some M, some L, some (O.rf mlt)) ∧
      Piecewise |D.ocbLat| |D.eabLat| ρo ρe (colat D.hem lat) (D.hem * L) x) ∧
  ((∀ lat mlt, p = (some lat, some mlt) → ¬ InHem D.hem lat) → o.1 = none ∧ o.2.1 = none ∧ o.2.2.1 = none)

/-- Afterwards the stores hold what they held before, except that at the records under the cursors new locations are
stored where nothing was, or where `overwrite` was set. -/
def Kept (D : DualObj) (ow : Bool) (s s' : DStore) : Prop :=
  (∀ k, (s'.ocb.slot k = s.ocb.slot k ∧ s'.ocb.slotMlt k = s.ocb.slotMlt k) ∨
    (k = D.ocbRecInd.toNat ∧ (ow = true ∨ s.ocb.slot k = none))) ∧
  (∀ k, (s'.eab.slot k = s.eab.slot k ∧ s'.eab.slotMlt k = s.eab.slotMlt k) ∨
    (k = D.eabRecInd.toNat ∧ (ow = true ∨ s.eab.slot k = none)))

theorem Kept.refl (D : DualObj) (ow : Bool) (s : DStore) : Kept D ow s s :=
  ⟨fun _ => .inl ⟨rfl, rfl⟩, fun _ => .inl ⟨rfl, rfl⟩⟩

theorem selRec_sel {D : DualObj} {O E : Rec} (h : Sel D O E) : selRec D.ocbRecs D.ocbRecInd = some O := by
  unfold selRec; rw [if_pos h.oPos, h.oRec]

/-- The dual `normal_coord` on any array, for a selected pair. -/
theorem dualNormal_out {D : DualObj} {O E : Rec} (hD : PairOk D O E) (s : DStore) (hs : s.WF D) (fresh : ℕ)
    (pts : List (Option ℝ × Option ℝ)) (ow : Bool) :
    ∃ out s', dualNormal D s fresh pts ow = .ok (out, s') ∧ s'.WF D ∧ Kept D ow s s' ∧
      List.Forall₂ (DualOut D O E) pts out := by
  unfold dualNormal
  rw [if_neg (by have := hD.sel.pos; have := hD.sel.lt; omega), selRec_sel hD.sel]
  simp only [bind, Except.bind]
  by_cases hex : ∃ p ∈ pts, ∃ lat, p.1 = some lat ∧ InHem O.hem lat
  · obtain ⟨f, hf, hmap⟩ := normalArr_map O hD.oValid
    rw [hmap pts hex]
    simp only []
    by_cases hall : ((pts.map f).all fun o => o.1.isNone) = true
    · rw [if_pos hall]
      refine ⟨_, s, rfl, hs, Kept.refl _ _ _, ?_⟩
      rw [List.map_map, List.forall₂_map_right_iff, List.forall₂_same]
      intro p hp
      rw [List.all_eq_true] at hall
      have hnone := hall (f p) (List.mem_map.2 ⟨p, hp, rfl⟩)
      constructor
      · rintro lat mlt ρo ρe rfl hg
        exfalso
        rcases hf (some lat, some mlt) with ⟨a, b, e, -, L, M, -, h, -⟩ | ⟨h, -⟩
        · rw [h] at hnone; simp at hnone
        · exact h lat mlt rfl hg.hem
      · intro h
        rcases hf p with ⟨a, b, rfl, hin, -⟩ | ⟨-, h1, h2⟩
        · rw [hD.oHem] at hin; exact absurd hin (h a b rfl)
        · exact ⟨h1, h2, h1⟩
    · rw [if_neg hall]
      obtain ⟨s', b1, b2, -, b4, b5⟩ := boundStep_out hD.sel hD.oDaily hD.eDaily
        { s with heap := Function.update s.heap fresh (pts.map (·.2)) } ⟨hs.oWF, hs.eWF, hs.oPaired, hs.ePaired⟩ fresh ow
      simp only [Function.update_self] at b1
      rw [b1]
      simp only [pure, Except.pure]
      refine ⟨_, s', rfl, b2, ⟨fun k => ?_, fun k => ?_⟩, ?_⟩
      · rcases b4 k with h | ⟨h1, h2, -⟩
        · exact .inl h
        · exact .inr ⟨h1, h2⟩
      · rcases b5 k with h | ⟨h1, h2, -⟩
        · exact .inl h
        · exact .inr ⟨h1, h2⟩
      · suffices key : ∀ bad : Bool, List.Forall₂ (DualOut D O E) pts (List.map (fun r =>
            (dualEntry D bad r.1.1 r.1.2.1 r.2.1 r.2.2, r.1.2.2.1, r.1.2.1, r.1.2.2.2))
            (((pts.map fun p => if wrongHem O.hem p.1 then none else p.1).zip (pts.map f)).zip
              (((pts.map (·.2)).map (·.bind (bLat O))).zip ((pts.map (·.2)).map (·.bind (bLat E)))))) from key _
        intro bad
        rw [List.map_map, List.map_map, List.zip_map', List.zip_map', List.zip_map', List.map_map,
          List.forall₂_map_right_iff, List.forall₂_same]
        intro p _
        simp only [Function.comp]
        constructor
        · rintro lat mlt ρo ρe rfl hg
          obtain ⟨L, M, hF⟩ := facts hD hg
          obtain ⟨x, hx, hpw⟩ := dualEntry_good hD hg hF bad
          rcases hf (some lat, some mlt) with ⟨a, b, e, hin, L', M', h1, h2, -⟩ | ⟨h, -⟩
          · simp only [Prod.mk.injEq, Option.some.injEq] at e
            obtain ⟨rfl, rfl⟩ := e
            rw [hF.norm] at h1
            simp only [Except.ok.injEq, Prod.mk.injEq] at h1
            obtain ⟨rfl, rfl, -⟩ := h1
            have hw : wrongHem O.hem (some lat) = false := (wrongHem_iff _ _).2 ⟨lat, rfl, hg.hem⟩
            refine ⟨x, L, M, hF.norm, ?_, hpw⟩
            simp only [h2, hw, Option.bind_some, hx, Bool.false_eq_true, if_false]
          · exact absurd hg.hem (h lat mlt rfl)
        · intro h
          rcases hf p with ⟨a, b, rfl, hin, -⟩ | ⟨-, h1, h2⟩
          · rw [hD.oHem] at hin; exact absurd hin (h a b rfl)
          · refine ⟨?_, h2, h1⟩
            rw [h1]
            obtain ⟨l, m⟩ := p
            cases hw : wrongHem O.hem l with
            | true => simp only [hw, if_true]; exact dualEntry_none _ _ _ _
            | false =>
              obtain ⟨lat, rfl, hin⟩ := (wrongHem_iff _ _).1 hw
              cases m with
              | none => simp [hw, dualEntry, absLt, absGe]
              | some m => rw [hD.oHem] at hin; exact absurd hin (h lat m rfl)
  · push Not at hex
    obtain ⟨out, lats, h1, rfl⟩ := normalArr_nan O pts hex
    rw [h1]
    simp only []
    rw [if_pos (by simp)]
    refine ⟨_, s, rfl, hs, Kept.refl _ _ _, ?_⟩
    rw [List.map_map, List.forall₂_map_right_iff, List.forall₂_same]
    intro p hp
    constructor
    · rintro lat mlt ρo ρe rfl hg
      exact absurd hg.hem (hex _ hp lat rfl)
    · intro _; exact ⟨rfl, rfl, rfl⟩

theorem forall₂_at {α β : Type*} {R : α → β → Prop} {l : List α} {m : List β} (h : List.Forall₂ R l m) {i : ℕ} {a : α}
    (hi : l[i]? = some a) : ∃ b, m[i]? = some b ∧ R a b := by
  induction h generalizing i with
  | nil => simp at hi
  | cons hab hrest ih =>
    cases i with
    | zero =>
      simp only [List.getElem?_cons_zero, Option.some.injEq] at hi
      subst hi
      exact ⟨_, rfl, hab⟩
    | succ i =>
      rw [List.getElem?_cons_succ] at hi ⊢
      exact ih hi

/-- The dual latitude of entry `i`, in degrees from the equator of the hemisphere, at the interface. -/
def DualLatAt (D : DualObj) (out : List (Option ℝ × Option ℝ × Option ℝ × Option ℝ)) (i : ℕ) (x : ℝ) : Prop :=
  ∃ r, out[i]? = some (some (D.hem * x), r)

theorem good_at {D : DualObj} {O E : Rec} (hD : PairOk D O E) {s s' : DStore} (hs : s.WF D) {fresh : ℕ}
    {pts : List (Option ℝ × Option ℝ)} {ow : Bool} {out : List (Option ℝ × Option ℝ × Option ℝ × Option ℝ)}
    (h : dualNormal D s fresh pts ow = .ok (out, s')) {i : ℕ} {lat mlt ρo ρe : ℝ}
    (hi : pts[i]? = some (some lat, some mlt)) (hg : GoodPt O E lat mlt ρo ρe) :
    ∃ x L M, normalPt O lat mlt = .ok (L, M, O.rf mlt) ∧ out[i]? = some (some (D.hem * x), some M, some L, some (O.rf mlt)) ∧
      DualLatAt D out i x ∧ Piecewise |D.ocbLat| |D.eabLat| ρo ρe (colat D.hem lat) (D.hem * L) x := by
  obtain ⟨out', s2, h1, -, -, h4⟩ := dualNormal_out hD s hs fresh pts ow
  rw [h] at h1
  simp only [Except.ok.injEq, Prod.mk.injEq] at h1
  obtain ⟨rfl, rfl⟩ := h1
  obtain ⟨o, ho, hout⟩ := forall₂_at h4 hi
  obtain ⟨x, L, M, e1, rfl, e3⟩ := hout.1 lat mlt ρo ρe rfl hg
  exact ⟨x, L, M, e1, ho, ⟨_, ho⟩, e3⟩

/-! ### C35 -/

/-- C35: the latitude of every good entry of every array is the piecewise linear map of the claim: the OCB latitude
poleward of the OCB, linear between the boundaries, linear from the EAB to the equator.  The other entries do not
matter; entries without numbers or of the wrong hemisphere are NaN. -/
theorem C35_piecewise {D : DualObj} {O E : Rec} (hD : PairOk D O E) (s : DStore) (hs : s.WF D) (fresh : ℕ)
    (pts : List (Option ℝ × Option ℝ)) (ow : Bool) :
    ∃ out s', dualNormal D s fresh pts ow = .ok (out, s') ∧ List.Forall₂ (DualOut D O E) pts out := by
  obtain ⟨out, s', h1, -, -, h2⟩ := dualNormal_out hD s hs fresh pts ow
  exact ⟨out, s', h1, h2⟩

theorem Piecewise.at_ocb {D : DualObj} {O E : Rec} (hD : PairOk D O E) {lat mlt ρo ρe L M x : ℝ}
    (hg : GoodPt O E lat mlt ρo ρe) (hn : normalPt O lat mlt = .ok (L, M, O.rf mlt)) (hc : colat D.hem lat = ρo)
    (hp : Piecewise |D.ocbLat| |D.eabLat| ρo ρe (colat D.hem lat) (D.hem * L) x) : x = |D.ocbLat| := by
  rw [(hp.1 hc.le).1]
  obtain ⟨L', M', hF⟩ := facts hD hg
  have hR : 0 < O.r + O.rf mlt := lt_of_le_of_lt (abs_nonneg _) hg.oIn
  have hb : boundaryLat O mlt = .ok (some lat) := by
    rw [boundaryLat_bLat, hF.ob, ← hc, ← hF.latEq]
  obtain ⟨M2, h2⟩ := C29_on_boundary O hD.oValid mlt lat hR hb
  rw [hn] at h2
  simp only [Except.ok.injEq, Prod.mk.injEq] at h2
  rw [h2.1, ← hD.oHem, ← hD.oLat, hD.oValid.hem_blat]

/-- C35: a location on the OCB goes to the OCB reference, a location on the EAB to the EAB reference. -/
theorem C35_boundaries {D : DualObj} {O E : Rec} (hD : PairOk D O E) (s s' : DStore) (hs : s.WF D) (fresh : ℕ)
    (pts : List (Option ℝ × Option ℝ)) (ow : Bool) (out : List (Option ℝ × Option ℝ × Option ℝ × Option ℝ))
    (h : dualNormal D s fresh pts ow = .ok (out, s')) (i : ℕ) (lat mlt ρo ρe : ℝ)
    (hi : pts[i]? = some (some lat, some mlt)) (hg : GoodPt O E lat mlt ρo ρe) :
    (|lat| = 90 - ρo → DualLatAt D out i |D.ocbLat|) ∧ (|lat| = 90 - ρe → ρo < ρe → DualLatAt D out i |D.eabLat|) := by
  obtain ⟨x, L, M, h1, -, h2, h3⟩ := good_at hD hs h hi hg
  obtain ⟨L', M', hF⟩ := facts hD hg
  constructor
  · intro hc
    rw [hF.abslat] at hc
    rwa [← Piecewise.at_ocb hD hg h1 (by linarith) h3]
  · intro hc hlt
    rw [hF.abslat] at hc
    have hce : colat D.hem lat = ρe := by linarith
    have := h3.2.1 (by rw [hce]; exact hlt) hce.le
    rw [hce, sub_self, zero_div, mul_zero, add_zero] at this
    rwa [← this]

/-- The value as a function of the colatitude, from the OCB to the equator. -/
noncomputable def ramp (rO rE ρo ρe c : ℝ) : ℝ :=
  if c ≤ ρe then rE + (rO - rE) * ((ρe - c) / (ρe - ρo)) else rE * ((90 - c) / (90 - ρe))

theorem ramp_eq {D : DualObj} {O E : Rec} (hD : PairOk D O E) {lat mlt ρo ρe L M x : ℝ} (hlt : ρo < ρe)
    (hg : GoodPt O E lat mlt ρo ρe) (hn : normalPt O lat mlt = .ok (L, M, O.rf mlt)) (hc : ρo ≤ colat D.hem lat)
    (hp : Piecewise |D.ocbLat| |D.eabLat| ρo ρe (colat D.hem lat) (D.hem * L) x) :
    x = ramp |D.ocbLat| |D.eabLat| ρo ρe (colat D.hem lat) := by
  unfold ramp
  rcases hc.lt_or_eq with h | h
  · split_ifs with h1
    · exact hp.2.1 h h1
    · exact hp.2.2 (not_le.1 h1)
  · rw [Piecewise.at_ocb hD hg hn h.symm hp, ← h, if_pos hlt.le, div_self (by linarith), mul_one]
    ring

theorem ramp_slope (rO rE ρo ρe c d : ℝ) (hE : 0 < rE) (hO : rE < rO) (hr : ρo < ρe) (h90 : ρe < 90) (hcd : c < d) :
    ramp rO rE ρo ρe d < ramp rO rE ρo ρe c ∧
    ramp rO rE ρo ρe c - ramp rO rE ρo ρe d ≤ ((rO - rE) / (ρe - ρo) + rE / (90 - ρe)) * (d - c) := by
  have hk1 : 0 < (rO - rE) / (ρe - ρo) := div_pos (by linarith) (by linarith)
  have hk2 : 0 < rE / (90 - ρe) := div_pos hE (by linarith)
  have e1 : ∀ c, rE + (rO - rE) * ((ρe - c) / (ρe - ρo)) = rE + (rO - rE) / (ρe - ρo) * (ρe - c) := by
    intro c; rw [mul_div_assoc', div_mul_eq_mul_div]
  have e2 : ∀ c, rE * ((90 - c) / (90 - ρe)) = rE + rE / (90 - ρe) * (ρe - c) := by
    intro c
    have : 90 - ρe ≠ 0 := by linarith
    field_simp; ring
  unfold ramp
  simp only [e1, e2]
  generalize (rO - rE) / (ρe - ρo) = k1 at *
  generalize rE / (90 - ρe) = k2 at *
  split_ifs with h1 h2 h2
  · constructor <;> nlinarith
  · exact absurd (le_trans hcd.le h1) h2
  · push Not at h1
    constructor <;> nlinarith
  · push Not at h1 h2
    constructor <;> nlinarith

/-- C35: on one meridian, from the OCB to the equator, the dual latitude is strictly increasing in absolute latitude and
Lipschitz continuous, across the EAB as well. -/
theorem C35_order_continuous {D : DualObj} {O E : Rec} (hD : PairOk D O E) (s s' : DStore) (hs : s.WF D) (fresh : ℕ)
    (pts : List (Option ℝ × Option ℝ)) (ow : Bool) (out : List (Option ℝ × Option ℝ × Option ℝ × Option ℝ))
    (h : dualNormal D s fresh pts ow = .ok (out, s')) (i j : ℕ) (lat₁ lat₂ mlt ρo ρe : ℝ) (hρ : ρo < ρe)
    (hi : pts[i]? = some (some lat₁, some mlt)) (hg₁ : GoodPt O E lat₁ mlt ρo ρe)
    (hj : pts[j]? = some (some lat₂, some mlt)) (hg₂ : GoodPt O E lat₂ mlt ρo ρe)
    (hlt : |lat₂| < |lat₁|) (hpole : |lat₁| ≤ 90 - ρo) :
    ∃ x₁ x₂, DualLatAt D out i x₁ ∧ DualLatAt D out j x₂ ∧ x₂ < x₁ ∧
      x₁ - x₂ ≤ ((|D.ocbLat| - |D.eabLat|) / (ρe - ρo) + |D.eabLat| / (90 - ρe)) * (|lat₁| - |lat₂|) := by
  obtain ⟨x₁, L₁, M₁, h1, -, h2, h3⟩ := good_at hD hs h hi hg₁
  obtain ⟨x₂, L₂, M₂, k1, -, k2, k3⟩ := good_at hD hs h hj hg₂
  obtain ⟨_, _, F1⟩ := facts hD hg₁
  obtain ⟨_, _, F2⟩ := facts hD hg₂
  rw [F1.abslat, F2.abslat] at hlt
  rw [F1.abslat] at hpole
  refine ⟨x₁, x₂, h2, k2, ?_⟩
  rw [ramp_eq hD hρ hg₁ h1 (by linarith) h3, ramp_eq hD hρ hg₂ k1 (by linarith) k3, F1.abslat, F2.abslat]
  have := ramp_slope |D.ocbLat| |D.eabLat| ρo ρe (colat D.hem lat₁) (colat D.hem lat₂) hD.ePos hD.order hρ hg₁.equator
    (by linarith)
  refine ⟨this.1, le_trans this.2 (le_of_eq (by ring))⟩

/-- C35: poleward of the OCB goes to at least the OCB reference, between the boundaries to between the references,
equatorward of the EAB to between 0 and the EAB reference, in proportion to the latitude (so to 0 at the equator). -/
theorem C35_regions {D : DualObj} {O E : Rec} (hD : PairOk D O E) (s s' : DStore) (hs : s.WF D) (fresh : ℕ)
    (pts : List (Option ℝ × Option ℝ)) (ow : Bool) (out : List (Option ℝ × Option ℝ × Option ℝ × Option ℝ))
    (h : dualNormal D s fresh pts ow = .ok (out, s')) (i : ℕ) (lat mlt ρo ρe : ℝ)
    (hi : pts[i]? = some (some lat, some mlt)) (hg : GoodPt O E lat mlt ρo ρe) :
    ∃ x, DualLatAt D out i x ∧ (90 - ρo ≤ |lat| ↔ |D.ocbLat| ≤ x) ∧
      (90 - ρe ≤ |lat| ∧ |lat| < 90 - ρo ↔ |D.eabLat| ≤ x ∧ x < |D.ocbLat|) ∧
      (|lat| < 90 - ρe ↔ x < |D.eabLat|) ∧ 0 < x ∧ (|lat| < 90 - ρe → x = |D.eabLat| / (90 - ρe) * |lat|) := by
  obtain ⟨x, L, M, h1, -, h2, h3⟩ := good_at hD hs h hi hg
  obtain ⟨_, _, F⟩ := facts hD hg
  refine ⟨x, h2, ?_⟩
  rw [F.abslat]
  set c := colat D.hem lat
  have hc := F.clt
  have hE := hD.ePos
  have hO := hD.order
  have h90 := hg.equator
  have hoe := hg.order
  generalize |D.ocbLat| = rO at *
  generalize |D.eabLat| = rE at *
  by_cases hA : c ≤ ρo
  · have hx := (h3.1 hA).2
    refine ⟨?_, ?_, ?_, by linarith, fun h => by linarith⟩
    · constructor <;> intro _ <;> linarith
    · constructor <;> rintro ⟨_, _⟩ <;> constructor <;> linarith
    · constructor <;> intro _ <;> linarith
  · push Not at hA
    by_cases hB : c ≤ ρe
    · have hx := h3.2.1 hA hB
      have hfr : 0 ≤ (ρe - c) / (ρe - ρo) := div_nonneg (by linarith) (by linarith)
      have hfr1 : (ρe - c) / (ρe - ρo) < 1 := by rw [div_lt_one (by linarith)]; linarith
      have hx1 : rE ≤ x := by rw [hx]; nlinarith
      have hx2 : x < rO := by rw [hx]; nlinarith
      refine ⟨?_, ?_, ?_, by linarith, fun h => by linarith⟩
      · constructor <;> intro _ <;> linarith
      · constructor
        · intro _; exact ⟨hx1, hx2⟩
        · intro _; constructor <;> linarith
      · constructor <;> intro _ <;> linarith
    · push Not at hB
      have hx := h3.2.2 hB
      have hfr : 0 < (90 - c) / (90 - ρe) := div_pos (by linarith) (by linarith)
      have hfr1 : (90 - c) / (90 - ρe) < 1 := by rw [div_lt_one (by linarith)]; linarith
      have hx0 : 0 < x := by rw [hx]; exact mul_pos hE hfr
      have hx2 : x < rE := by rw [hx]; nlinarith
      refine ⟨?_, ?_, ?_, hx0, fun _ => ?_⟩
      · constructor <;> intro _ <;> linarith
      · constructor <;> rintro ⟨_, _⟩ <;> constructor <;> linarith
      · constructor <;> intro _ <;> linarith
      · rw [hx, mul_div_assoc', div_mul_eq_mul_div]

/-! ### An example -/

/-- EAB of the example: the circle of `exRec` with radius 26. -/
noncomputable def exEab : Rec := ⟨90, 5, 26, fun _ => 0, 1, 64⟩

theorem exEab_valid : exEab.Valid :=
  ⟨.inl rfl, by norm_num [exEab], by rw [abs_lt]; constructor <;> norm_num [exEab]⟩

/-- Two OCB records and one EAB record; the pair is the second OCB record with the EAB record. -/
noncomputable def exDual : DualObj := ⟨[exRec, exRec], [exEab], [1], [0], 0, 1, 0, 1, 74, 64⟩

theorem exDual_ok : PairOk exDual exRec exEab :=
  ⟨⟨by simp [exDual], by simp [exDual, DualObj.records], rfl, rfl, by simp [exDual], by simp [exDual], rfl, rfl⟩,
    exRec_valid, exEab_valid, fun _ => rfl, fun _ => rfl, rfl, rfl, rfl, rfl,
    by norm_num [exDual], by norm_num [exDual]⟩

theorem exCross (r ref : ℝ) (hr : 5 < r) : Crossings ⟨90, 5, r, fun _ => 0, 1, ref⟩ 6 = {5 + r} := by
  obtain ⟨ρ, h0, -, h2⟩ := C29_pole_inside ⟨90, 5, r, fun _ => 0, 1, ref⟩ 6
    (by rw [abs_of_pos (by norm_num : (0:ℝ) < 5)]; simpa using hr)
  have : 5 + r ∈ Crossings ⟨90, 5, r, fun _ => 0, 1, ref⟩ 6 := by
    refine ⟨by linarith, ?_⟩
    have h : hourAngle 6 - 90 * π / 180 = 0 := by unfold hourAngle; ring
    simp only [polarDist2, h, Real.cos_zero]
    ring
  rw [h2, Set.mem_singleton_iff] at this
  rw [h2, this]

theorem exGood (lat : ℝ) (h0 : 0 < lat) (h1 : lat ≤ 90) : GoodPt exRec exEab lat 6 21 31 := by
  refine ⟨(sign_hem lat h0).1, by rwa [abs_of_pos h0], ?_, ?_, ?_, ?_, by norm_num, by norm_num⟩
  · norm_num [exRec]
  · norm_num [exEab]
  · have := exCross 16 74 (by norm_num)
    norm_num at this
    exact this
  · have := exCross 26 64 (by norm_num)
    norm_num at this
    exact this

theorem exStore_wf : (⟨fun _ => [], none, none, none, none⟩ : DStore).WF exDual :=
  ⟨⟨by simp [DStore.ocb], by simp [DStore.ocb]⟩, ⟨by simp [DStore.eab], by simp [DStore.eab]⟩,
    ⟨by simp [DStore.ocb], by simp [DStore.ocb, Store.slot, Store.slotMlt]⟩,
    ⟨by simp [DStore.eab], by simp [DStore.eab, Store.slot, Store.slotMlt]⟩⟩

/-- The hypotheses of C35 hold for locations in all three regions. -/
example : PairOk exDual exRec exEab ∧ GoodPt exRec exEab 80 6 21 31 ∧ GoodPt exRec exEab 65 6 21 31 ∧
    GoodPt exRec exEab 30 6 21 31 :=
  ⟨exDual_ok, exGood 80 (by norm_num) (by norm_num), exGood 65 (by norm_num) (by norm_num),
    exGood 30 (by norm_num) (by norm_num)⟩

/-! ### C37 -/

/-- C37: the test on the normalised latitude and the tests on the boundary latitudes agree: exactly one region. -/
theorem C37_exactly_one {D : DualObj} {O E : Rec} (hD : PairOk D O E) (lat mlt ρo ρe : ℝ) (hg : GoodPt O E lat mlt ρo ρe) :
    ∃ L M o e, normalPt O lat mlt = .ok (L, M, O.rf mlt) ∧ boundaryLat O mlt = .ok (some o) ∧
      boundaryLat E mlt = .ok (some e) ∧
      ((|D.ocbLat| ≤ D.hem * L ∧ ¬ (|lat| < |o| ∧ |e| ≤ |lat|) ∧ ¬ |lat| < |e|) ∨
       (¬ |D.ocbLat| ≤ D.hem * L ∧ (|lat| < |o| ∧ |e| ≤ |lat|) ∧ ¬ |lat| < |e|) ∨
       (¬ |D.ocbLat| ≤ D.hem * L ∧ ¬ (|lat| < |o| ∧ |e| ≤ |lat|) ∧ |lat| < |e|)) := by
  obtain ⟨L, M, F⟩ := facts hD hg
  refine ⟨L, M, _, _, F.norm, by rw [boundaryLat_bLat, F.ob], by rw [boundaryLat_bLat, F.eb], ?_⟩
  rw [F.inside, F.absob, F.abseb, F.abslat]
  have := hg.order
  rcases le_or_gt (colat D.hem lat) ρo with h | h
  · exact .inl ⟨h, by rintro ⟨h1, -⟩; linarith, by intro h1; linarith⟩
  · rcases le_or_gt (colat D.hem lat) ρe with h' | h'
    · exact .inr (.inl ⟨by linarith, ⟨by linarith, by linarith⟩, by linarith⟩)
    · exact .inr (.inr ⟨by linarith, by rintro ⟨h1, h2⟩; linarith, by linarith⟩)

/-- C37: no good location of any array is reported as undefined. -/
theorem C37_no_undefined {D : DualObj} {O E : Rec} (hD : PairOk D O E) (s : DStore) (hs : s.WF D) (fresh : ℕ)
    (pts : List (Option ℝ × Option ℝ)) (ow : Bool) :
    ∃ out s', dualNormal D s fresh pts ow = .ok (out, s') ∧ out.length = pts.length ∧
      ∀ (i : ℕ) (lat mlt ρo ρe : ℝ), pts[i]? = some (some lat, some mlt) → GoodPt O E lat mlt ρo ρe →
        ∃ bl M L rc, out[i]? = some (some bl, some M, some L, some rc) ∧ InHem D.hem bl ∧ 0 ≤ M ∧ M < 24 := by
  obtain ⟨out, s', h1, -, -, h2⟩ := dualNormal_out hD s hs fresh pts ow
  refine ⟨out, s', h1, h2.length_eq.symm, ?_⟩
  intro i lat mlt ρo ρe hi hg
  obtain ⟨x, L, M, e1, e2, e3, -⟩ := good_at hD hs h1 hi hg
  obtain ⟨x', e4, -, -, -, hx, -⟩ := C35_regions hD s s' hs fresh pts ow out h1 i lat mlt ρo ρe hi hg
  obtain ⟨L', M', F⟩ := facts hD hg
  rw [F.norm] at e1
  simp only [Except.ok.injEq, Prod.mk.injEq] at e1
  have hem1 : D.hem = 1 ∨ D.hem = -1 := by rw [← hD.oHem]; exact hD.oValid.hem
  refine ⟨_, M, L, _, e2, inHem_of hem1 ?_, by rw [← e1.2.1]; exact F.range.1, by rw [← e1.2.1]; exact F.range.2⟩
  obtain ⟨r, hr⟩ := e4
  rw [e2] at hr
  simp only [Option.some.injEq, Prod.mk.injEq] at hr
  rw [hr.1, ← mul_assoc]
  rcases hem1 with h | h <;> rw [h] <;> linarith

example : ∃ L M o e, normalPt exRec 65 6 = .ok (L, M, exRec.rf 6) ∧ boundaryLat exRec 6 = .ok (some o) ∧
    boundaryLat exEab 6 = .ok (some e) ∧ |(65:ℝ)| < |o| ∧ |e| ≤ |(65:ℝ)| := by
  have hg := exGood 65 (by norm_num) (by norm_num)
  obtain ⟨L, M, F⟩ := facts exDual_ok hg
  refine ⟨L, M, _, _, F.norm, by rw [boundaryLat_bLat, F.ob], by rw [boundaryLat_bLat, F.eb], ?_, ?_⟩
  · rw [F.absob, abs_of_pos] <;> norm_num
  · rw [F.abseb, abs_of_pos] <;> norm_num

/-! ### C36 -/

/-- What the round trip owes for one location: latitude and local time back, or NaN for a location outside the domain. -/
def BackOut (D : DualObj) (p : Option ℝ × Option ℝ) (q : Option ℝ × Option ℝ) : Prop :=
  (∃ lat mlt m, p = (some lat, some mlt) ∧ InHem D.hem lat ∧ q = (some lat, some m) ∧ (|lat| < 90 → SameHour m mlt)) ∨
  ((∀ lat mlt, p = (some lat, some mlt) → ¬ InHem D.hem lat) ∧ q = (none, none))

theorem sameHour_wrap (m : ℝ) : SameHour (wrapMlt m) m := by
  rcases wrapMlt_cases m with h | h | h <;> rw [h]
  · exact ⟨0, by push_cast; ring⟩
  · exact ⟨1, by push_cast; ring⟩
  · exact ⟨-1, by push_cast; ring⟩

theorem SameHour.trans {a b c : ℝ} (h : SameHour a b) (h' : SameHour b c) : SameHour a c := by
  obtain ⟨k, hk⟩ := h
  obtain ⟨l, hl⟩ := h'
  exact ⟨k + l, by rw [hk, hl]; push_cast; ring⟩

/-- What `revert_coord` of the OCB has left in an entry before the dual part: the reverted location, or NaN. -/
def CurOut (O : Rec) (q : Option ℝ × Option ℝ × Option ℝ) (c : Option ℝ × Option ℝ) : Prop :=
  RevertOut O q c ∨ (c = (none, none) ∧ ∀ a, q.1 = some a → ¬ InHem O.hem a)

theorem revertArr_cur (O : Rec) (hO : O.Valid) (pts : List (Option ℝ × Option ℝ × Option ℝ)) :
    ∃ cur, revertArr (some O) pts = .ok cur ∧ List.Forall₂ (CurOut O) pts cur := by
  rcases C27_revert_entries_partial O hO pts with ⟨h1, h2⟩ | ⟨-, out, h2, h3⟩
  · refine ⟨_, h2, ?_⟩
    rw [List.forall₂_map_right_iff, List.forall₂_same]
    exact fun p hp => .inr ⟨rfl, h1 p hp⟩
  · exact ⟨out, h2, h3.imp fun _ _ h => .inl h⟩

theorem back_entry {D : DualObj} {O E : Rec} (hD : PairOk D O E) (p : Option ℝ × Option ℝ)
    (o : Option ℝ × Option ℝ × Option ℝ × Option ℝ) (cur : Option ℝ × Option ℝ)
    (hp : (∃ lat mlt ρo ρe, p = (some lat, some mlt) ∧ GoodPt O E lat mlt ρo ρe) ∨
      ∀ lat mlt, p = (some lat, some mlt) → ¬ InHem D.hem lat)
    (ho : DualOut D O E p o) (hcur : CurOut O (o.1, o.2.1, o.2.2.2) cur) :
    BackOut D p (dualRevertEntry D o.1 cur ((p.2.map wrapMlt).map wrapMlt) (p.2.bind (bLat O)) (p.2.bind (bLat E))) ∧
    (absGe o.1 (some D.ocbLat) = true → BackOut D p cur) := by
  have hem1 : D.hem = 1 ∨ D.hem = -1 := by rw [← hD.oHem]; exact hD.oValid.hem
  have hsq : D.hem * D.hem = 1 := by rw [← hD.oHem]; exact hD.oValid.hem_sq
  rcases hp with ⟨lat, mlt, ρo, ρe, rfl, hg⟩ | hp
  · obtain ⟨x, L, M, h1, rfl, hpw⟩ := ho.1 lat mlt ρo ρe rfl hg
    obtain ⟨L', M', F⟩ := facts hD hg
    have hin : InHem D.hem lat := by have := hg.hem; rwa [hD.oHem] at this
    have hwrap : ∀ m, SameHour (wrapMlt (wrapMlt m)) m := fun m => (sameHour_wrap _).trans (sameHour_wrap m)
    have hO : D.ocbLat = D.hem * |D.ocbLat| := by
      rw [← hD.oLat, ← hD.oValid.hem_blat, hD.oHem, ← mul_assoc, hsq, one_mul]
    have hE : D.eabLat = D.hem * |D.eabLat| := by
      rw [← hD.eLat, ← hD.eValid.hem_blat, hD.eHem, ← mul_assoc, hsq, one_mul]
    have hne : D.hem ≠ 0 := by rintro h; rw [h] at hsq; norm_num at hsq
    have hlat := F.latEq
    have habsx : ∀ y : ℝ, 0 ≤ y → |D.hem * y| = y := by
      intro y hy
      rcases hem1 with h | h <;> rw [h]
      · rw [one_mul, abs_of_nonneg hy]
      · rw [neg_one_mul, abs_neg, abs_of_nonneg hy]
    have hEp := hD.ePos
    have hOE := hD.order
    have h90 := hg.equator
    have hoe := hg.order
    simp only [dualRevertEntry, Option.bind_some, F.ob, F.eb, Option.map_some]
    set c := colat D.hem lat with hcdef
    by_cases hA : c ≤ ρo
    · obtain ⟨hx, hx'⟩ := hpw.1 hA
      have hback : BackOut D (some lat, some mlt) cur := by
        have hR : O.r + O.rf mlt ≠ 0 := (lt_of_le_of_lt (abs_nonneg _) hg.oIn).ne'
        obtain ⟨L2, M2, m, n1, n2, -, -, n5⟩ := C25_revert_normal O hD.oValid lat mlt hR
          (by rw [hg.hem.abs]; exact hg.bound)
        rw [h1] at n1
        simp only [Except.ok.injEq, Prod.mk.injEq] at n1
        obtain ⟨rfl, rfl, -⟩ := n1
        rw [show D.hem * x = L by rw [hx, ← mul_assoc, hsq, one_mul]] at hcur
        rcases hcur with (⟨a, b, c', e, lat', mlt', r1, rfl, -⟩ | ⟨h, -⟩) | ⟨-, h⟩
        · simp only [Prod.mk.injEq, Option.some.injEq] at e
          obtain ⟨rfl, rfl, rfl⟩ := e
          rw [n2] at r1
          simp only [Except.ok.injEq, Prod.mk.injEq] at r1
          obtain ⟨rfl, rfl⟩ := r1
          exact .inl ⟨lat, mlt, m, rfl, hin, rfl, fun hh => n5 (by rw [hg.hem.abs]; exact hh)⟩
        · exact absurd rfl (h _ _ _)
        · exfalso
          refine h L rfl ?_
          rw [hD.oHem]
          exact inHem_of hem1 (by rw [← hx]; linarith)
      refine ⟨?_, fun _ => hback⟩
      rw [habsx x (by linarith), if_neg (by linarith), if_neg (by linarith)]
      exact hback
    · push Not at hA
      by_cases hB : c ≤ ρe
      · have hx := hpw.2.1 hA hB
        have hfr : 0 ≤ (ρe - c) / (ρe - ρo) := div_nonneg (by linarith) (by linarith)
        have hfr1 : (ρe - c) / (ρe - ρo) < 1 := by rw [div_lt_one (by linarith)]; linarith
        have hx1 : |D.eabLat| ≤ x := by rw [hx]; nlinarith
        have hx2 : x < |D.ocbLat| := by rw [hx]; nlinarith
        have hxa := habsx x (by linarith)
        constructor
        · rw [hxa, if_neg (by linarith), if_pos hx2]
          refine .inl ⟨lat, mlt, _, rfl, hin, ?_, fun _ => hwrap mlt⟩
          rw [Prod.mk.injEq]
          refine ⟨?_, rfl⟩
          congr 1
          have hd1 : ρe - ρo ≠ 0 := by linarith
          generalize |D.eabLat| = q at *
          generalize |D.ocbLat| = r at *
          have hd2 : r - q ≠ 0 := by linarith
          rw [hO, hE, hx]
          conv_rhs => rw [hlat]
          rw [show D.hem * r - D.hem * q = D.hem * (r - q) by ring]
          field_simp
          ring
        · intro h
          simp only [absGe, decide_eq_true_eq, hxa] at h
          linarith
      · push Not at hB
        have hx := hpw.2.2 hB
        have hc := F.clt
        have hfr : 0 < (90 - c) / (90 - ρe) := div_pos (by linarith) (by linarith)
        have hfr1 : (90 - c) / (90 - ρe) < 1 := by rw [div_lt_one (by linarith)]; linarith
        have hx0 : 0 < x := by rw [hx]; exact mul_pos hEp hfr
        have hx2 : x < |D.eabLat| := by rw [hx]; nlinarith
        have hxa := habsx x hx0.le
        constructor
        · rw [hxa, if_pos hx2]
          refine .inl ⟨lat, mlt, _, rfl, hin, ?_, fun _ => hwrap mlt⟩
          rw [Prod.mk.injEq]
          refine ⟨?_, rfl⟩
          congr 1
          have hd1 : 90 - ρe ≠ 0 := by linarith
          generalize |D.eabLat| = q at *
          have hd2 : q ≠ 0 := by linarith
          rw [hE, hx]
          conv_rhs => rw [hlat]
          field_simp
          ring
        · intro h
          simp only [absGe, decide_eq_true_eq, hxa] at h
          linarith
  · obtain ⟨h1, -, -⟩ := ho.2 hp
    have hc : cur = (none, none) := by
      rcases hcur with (⟨a, b, c', e, -⟩ | ⟨-, h⟩) | ⟨h, -⟩
      · rw [h1] at e; simp at e
      · exact h
      · exact h
    rw [h1, hc]
    exact ⟨.inr ⟨hp, rfl⟩, fun h => by simp [absGe] at h⟩

/-- C36: an array of good locations (and possibly locations outside the domain) comes back from `revert_coord` given
the original local times: latitude exactly, local time up to whole days, NaN outside the domain. -/
theorem C36_round_trip {D : DualObj} {O E : Rec} (hD : PairOk D O E) (s : DStore) (hs : s.WF D) (fresh : ℕ)
    (pts : List (Option ℝ × Option ℝ)) (ow : Bool)
    (hpts : ∀ p ∈ pts, (∃ lat mlt ρo ρe, p = (some lat, some mlt) ∧ GoodPt O E lat mlt ρo ρe) ∨
      ∀ lat mlt, p = (some lat, some mlt) → ¬ InHem D.hem lat) :
    ∃ out s', dualNormal D s fresh pts ow = .ok (out, s') ∧
      ∀ (t : DStore) (ref : ℕ) (ow' : Bool), t.WF D → t.heap ref = pts.map (·.2) →
        ∃ back t', dualRevert D t (out.map fun o => (o.1, o.2.1, o.2.2.2)) (some ref) ow' = .ok (back, t') ∧
          List.Forall₂ (BackOut D) pts back := by
  obtain ⟨out, s', h1, -, -, h2⟩ := dualNormal_out hD s hs fresh pts ow
  refine ⟨out, s', h1, ?_⟩
  intro t ref ow' ht href
  obtain ⟨cur, c1, c2⟩ := revertArr_cur O hD.oValid (out.map fun o => (o.1, o.2.1, o.2.2.2))
  obtain ⟨t', b1, -, b3, -, -⟩ := boundStep_out hD.sel hD.oDaily hD.eDaily t ht ref ow'
  have hheap : t'.heap ref = wrap2 (pts.map (·.2)) := by rw [b3, Function.update_self, href]
  rw [List.forall₂_map_left_iff] at c2
  unfold dualRevert
  rw [selRec_sel hD.sel, c1]
  simp only [bind, Except.bind, pure, Except.pure]
  split_ifs with hall
  · refine ⟨_, _, rfl, ?_⟩
    rw [List.all_eq_true] at hall
    have hall' : ∀ o ∈ out, absGe o.1 (some D.ocbLat) = true :=
      fun o ho => hall _ (List.mem_map.2 ⟨o, ho, rfl⟩)
    clear h1 c1 b1 hheap href hall
    induction h2 generalizing cur with
    | nil => cases c2; exact .nil
    | cons hpo hrest ih =>
      cases c2 with
      | cons hc hcs =>
        exact .cons ((back_entry hD _ _ _ (hpts _ List.mem_cons_self) hpo hc).2 (hall' _ List.mem_cons_self))
          (ih (fun p hp => hpts p (List.mem_cons_of_mem _ hp)) _ hcs (fun o ho => hall' o (List.mem_cons_of_mem _ ho)))
  · rw [b1]
    refine ⟨_, _, rfl, ?_⟩
    rw [hheap, href, wrap2]
    clear h1 c1 b1 hheap href hall
    induction h2 generalizing cur with
    | nil => cases c2; exact .nil
    | cons hpo hrest ih =>
      cases c2 with
      | cons hc hcs =>
        exact .cons (back_entry hD _ _ _ (hpts _ List.mem_cons_self) hpo hc).1
          (ih (fun p hp => hpts p (List.mem_cons_of_mem _ hp)) _ hcs)

example : ∀ p ∈ [((some 80 : Option ℝ), (some 6 : Option ℝ)), (some 65, some 6), (some 30, some 6), (some (-30), some 6), (none, some 1)],
    (∃ lat mlt ρo ρe, p = (some lat, some mlt) ∧ GoodPt exRec exEab lat mlt ρo ρe) ∨
      ∀ lat mlt, p = (some lat, some mlt) → ¬ InHem exDual.hem lat := by
  intro p hp
  simp only [List.mem_cons, List.not_mem_nil, or_false] at hp
  rcases hp with rfl | rfl | rfl | rfl | rfl
  · exact .inl ⟨80, 6, 21, 31, rfl, exGood 80 (by norm_num) (by norm_num)⟩
  · exact .inl ⟨65, 6, 21, 31, rfl, exGood 65 (by norm_num) (by norm_num)⟩
  · exact .inl ⟨30, 6, 21, 31, rfl, exGood 30 (by norm_num) (by norm_num)⟩
  · right
    rintro lat mlt h
    simp only [Prod.mk.injEq, Option.some.injEq] at h
    rw [← h.1]
    exact (sign_hem 30 (by norm_num)).2
  · right; simp

/-! ### C38 -/

/-- A call of a coordinate method. -/
inductive DCall where
  | normal (fresh : ℕ) (pts : List (Option ℝ × Option ℝ))
  | revert (pts : List (Option ℝ × Option ℝ × Option ℝ)) (amlt : Option ℕ)
  | calcR (pts : List (Option ℝ × Option ℝ)) (ref : ℕ)

/-- The stores after a call; a call that raises is skipped (see `C38_call` for when that is). -/
noncomputable def runCall (D : DualObj) (s : DStore) (ow : Bool) : DCall → DStore
  | .normal fresh pts => match dualNormal D s fresh pts ow with | .ok (_, s') => s' | .error _ => s
  | .revert pts amlt => match dualRevert D s pts amlt ow with | .ok (_, s') => s' | .error _ => s
  | .calcR pts ref => match Coord.calcR D s pts ref ow with | .ok (_, s') => s' | .error _ => s

/-- A history: each call with the cursors at that time and its `overwrite` flag. -/
noncomputable def runCalls (s : DStore) (ops : List (DualObj × DCall × Bool)) : DStore :=
  ops.foldl (fun s o => runCall o.1 s o.2.2 o.2.1) s

theorem dualRevert_out {D : DualObj} {O E : Rec} (hD : PairOk D O E) (s : DStore) (hs : s.WF D)
    (pts : List (Option ℝ × Option ℝ × Option ℝ)) (amlt : Option ℕ) (ow : Bool) :
    (∃ out s', dualRevert D s pts amlt ow = .ok (out, s') ∧ s'.WF D ∧ Kept D ow s s') ∨
    (amlt = none ∧ dualRevert D s pts amlt ow = .error .valueError) := by
  obtain ⟨cur, c1, -⟩ := revertArr_cur O hD.oValid pts
  unfold dualRevert
  rw [selRec_sel hD.sel, c1]
  simp only [bind, Except.bind, pure, Except.pure]
  split_ifs
  · exact .inl ⟨_, _, rfl, hs, Kept.refl _ _ _⟩
  · cases amlt with
    | none => exact .inr ⟨rfl, rfl⟩
    | some ref =>
      obtain ⟨s', b1, b2, -, b4, b5⟩ := boundStep_out hD.sel hD.oDaily hD.eDaily s hs ref ow
      simp only [b1]
      refine .inl ⟨_, _, rfl, b2, fun k => ?_, fun k => ?_⟩
      · exact (b4 k).imp id fun h => ⟨h.1, h.2.1⟩
      · exact (b5 k).imp id fun h => ⟨h.1, h.2.1⟩

theorem calcR_out {D : DualObj} {O E : Rec} (hD : PairOk D O E) (s : DStore) (hs : s.WF D)
    (pts : List (Option ℝ × Option ℝ)) (ref : ℕ) (ow : Bool) :
    ∃ s', Coord.calcR D s pts ref ow = .ok ((pts.zip ((s.heap ref).map fun m => (m.bind (bLat O), m.bind (bLat E)))).map
        (fun r => calcREntry D r.1.1 (r.1.2.map fun c => O.r + c) r.2.1 r.2.2), s') ∧ s'.WF D ∧ Kept D ow s s' := by
  obtain ⟨s', b1, b2, -, b4, b5⟩ := boundStep_out hD.sel hD.oDaily hD.eDaily s hs ref ow
  unfold Coord.calcR
  rw [if_neg (by have := hD.sel.pos; have := hD.sel.lt; omega), pyIdx_pos hD.sel.pos hD.sel.oInd]
  simp only [bind, Except.bind, pure, Except.pure]
  rw [pyIdx_pos hD.sel.oPos hD.sel.oRec, b1]
  simp only [List.zip_map']
  refine ⟨s', rfl, b2, fun k => ?_, fun k => ?_⟩
  · exact (b4 k).imp id fun h => ⟨h.1, h.2.1⟩
  · exact (b5 k).imp id fun h => ⟨h.1, h.2.1⟩

/-- C38, one call: nothing that was stored changes unless `overwrite` is set, and the only exception is `revert_coord`
without local times. -/
theorem C38_call {D : DualObj} {O E : Rec} (hD : PairOk D O E) (s : DStore) (hs : s.WF D) (ow : Bool) :
    (∀ fresh pts, ∃ out s', dualNormal D s fresh pts ow = .ok (out, s') ∧ s'.WF D ∧ Kept D ow s s') ∧
    (∀ pts ref, ∃ out s', dualRevert D s pts (some ref) ow = .ok (out, s') ∧ s'.WF D ∧ Kept D ow s s') ∧
    (∀ pts ref, ∃ out s', Coord.calcR D s pts ref ow = .ok (out, s') ∧ s'.WF D ∧ Kept D ow s s') := by
  refine ⟨fun fresh pts => ?_, fun pts ref => ?_, fun pts ref => ?_⟩
  · obtain ⟨out, s', h1, h2, h3, -⟩ := dualNormal_out hD s hs fresh pts ow
    exact ⟨out, s', h1, h2, h3⟩
  · rcases dualRevert_out hD s hs pts (some ref) ow with h | ⟨h, -⟩
    · exact h
    · cases h
  · obtain ⟨s', h1, h2, h3⟩ := calcR_out hD s hs pts ref ow
    exact ⟨_, s', h1, h2, h3⟩

theorem runCall_kept {D : DualObj} {O E : Rec} (hD : PairOk D O E) (s : DStore) (hs : s.WF D) (ow : Bool) (c : DCall) :
    (runCall D s ow c).WF D ∧ Kept D ow s (runCall D s ow c) := by
  cases c with
  | normal fresh pts =>
    obtain ⟨out, s', h1, h2, h3, -⟩ := dualNormal_out hD s hs fresh pts ow
    simp only [runCall, h1]; exact ⟨h2, h3⟩
  | revert pts amlt =>
    rcases dualRevert_out hD s hs pts amlt ow with ⟨out, s', h1, h2, h3⟩ | ⟨-, h⟩
    · simp only [runCall, h1]; exact ⟨h2, h3⟩
    · simp only [runCall, h]; exact ⟨hs, Kept.refl _ _ _⟩
  | calcR pts ref =>
    obtain ⟨s', h1, h2, h3⟩ := calcR_out hD s hs pts ref ow
    simp only [runCall, h1]; exact ⟨h2, h3⟩

/-- C38: for every history of calls, with the cursor moved to any pair in between, the locations stored for an OCB record
stay, provided `overwrite` is never set while the cursor is on it; the same for EAB records.  The two members are
independent: it does not matter whether the partner has stored locations. -/
theorem C38_history (nO nE : ℕ) (s : DStore) (ops : List (DualObj × DCall × Bool))
    (hops : ∀ o ∈ ops, o.1.ocbRecs.length = nO ∧ o.1.eabRecs.length = nE ∧ ∃ O E, PairOk o.1 O E)
    (hs : s.ocb.WF nO ∧ s.eab.WF nE ∧ s.ocb.Paired ∧ s.eab.Paired) (k : ℕ) (v : List (Option ℝ)) (r : ℕ) :
    ((s.ocb.slot k = some v ∧ s.ocb.slotMlt k = some r ∧ ∀ o ∈ ops, o.2.2 = true → o.1.ocbRecInd.toNat ≠ k) →
      (runCalls s ops).ocb.slot k = some v ∧ (runCalls s ops).ocb.slotMlt k = some r) ∧
    ((s.eab.slot k = some v ∧ s.eab.slotMlt k = some r ∧ ∀ o ∈ ops, o.2.2 = true → o.1.eabRecInd.toNat ≠ k) →
      (runCalls s ops).eab.slot k = some v ∧ (runCalls s ops).eab.slotMlt k = some r) := by
  unfold runCalls
  induction ops generalizing s with
  | nil => exact ⟨fun h => ⟨h.1, h.2.1⟩, fun h => ⟨h.1, h.2.1⟩⟩
  | cons o ops ih =>
    obtain ⟨D, c, ow⟩ := o
    obtain ⟨hl1, hl2, O, E, hD⟩ := hops _ List.mem_cons_self
    have hsD : s.WF D := ⟨by rw [hl1]; exact hs.1, by rw [hl2]; exact hs.2.1, hs.2.2.1, hs.2.2.2⟩
    obtain ⟨hW, hK⟩ := runCall_kept hD s hsD ow c
    have hs' : (runCall D s ow c).ocb.WF nO ∧ (runCall D s ow c).eab.WF nE ∧ (runCall D s ow c).ocb.Paired ∧
        (runCall D s ow c).eab.Paired :=
      ⟨by rw [← hl1]; exact hW.oWF, by rw [← hl2]; exact hW.eWF, hW.oPaired, hW.ePaired⟩
    have := ih (runCall D s ow c) (fun o ho => hops o (List.mem_cons_of_mem _ ho)) hs'
    simp only [List.foldl_cons]
    constructor
    · rintro ⟨h1, h2, h3⟩
      refine this.1 ⟨?_, ?_, fun o ho => h3 o (List.mem_cons_of_mem _ ho)⟩
      · rcases hK.1 k with h | ⟨e, hh⟩
        · rw [h.1, h1]
        · rcases hh with hh | hh
          · exact absurd e.symm (h3 _ List.mem_cons_self hh)
          · rw [h1] at hh; cases hh
      · rcases hK.1 k with h | ⟨e, hh⟩
        · rw [h.2, h2]
        · rcases hh with hh | hh
          · exact absurd e.symm (h3 _ List.mem_cons_self hh)
          · rw [h1] at hh; cases hh
    · rintro ⟨h1, h2, h3⟩
      refine this.2 ⟨?_, ?_, fun o ho => h3 o (List.mem_cons_of_mem _ ho)⟩
      · rcases hK.2 k with h | ⟨e, hh⟩
        · rw [h.1, h1]
        · rcases hh with hh | hh
          · exact absurd e.symm (h3 _ List.mem_cons_self hh)
          · rw [h1] at hh; cases hh
      · rcases hK.2 k with h | ⟨e, hh⟩
        · rw [h.2, h2]
        · rcases hh with hh | hh
          · exact absurd e.symm (h3 _ List.mem_cons_self hh)
          · rw [h1] at hh; cases hh

/-- The hypotheses of `C38_history` hold for a store with one OCB location and none for the EAB. -/
example : let s : DStore := ⟨fun _ => [some 6], some [none, some [some 69]], some [none, some 0], none, none⟩
    s.ocb.WF 2 ∧ s.eab.WF 1 ∧ s.ocb.Paired ∧ s.eab.Paired ∧ s.ocb.slot 1 = some [some 69] := by
  refine ⟨⟨by simp [DStore.ocb], by simp [DStore.ocb]⟩, ⟨by simp [DStore.eab], by simp [DStore.eab]⟩,
    ⟨by simp [DStore.ocb], ?_⟩, ⟨by simp [DStore.eab], by simp [DStore.eab, Store.slot, Store.slotMlt]⟩, rfl⟩
  intro k
  match k with
  | 0 => simp [DStore.ocb, Store.slot, Store.slotMlt]
  | 1 => simp [DStore.ocb, Store.slot, Store.slotMlt]
  | k + 2 => simp [DStore.ocb, Store.slot, Store.slotMlt]

/-! ### C39 -/

/-- C39: for a good location with dual latitude `bl` (as `normal_coord` gives it), `calc_r` returns the pair of radii of
its region, in dual coordinates and in magnetic coordinates, and both are positive. -/
theorem C39_radii {D : DualObj} {O E : Rec} (hD : PairOk D O E) (s : DStore) (hs : s.WF D) (ow ow' : Bool) (fresh ref : ℕ)
    (lat mlt ρo ρe : ℝ) (hρ : ρo < ρe) (hg : GoodPt O E lat mlt ρo ρe) (t : DStore) (ht : t.WF D)
    (href : t.heap ref = [some mlt]) :
    ∃ x L M s' t' a b, dualNormal D s fresh [(some lat, some mlt)] ow
        = .ok ([(some (D.hem * x), some M, some L, some (O.rf mlt))], s') ∧
      Coord.calcR D t [(some (D.hem * x), some (O.rf mlt))] ref ow' = .ok ([(some a, some b)], t') ∧ 0 < a ∧ 0 < b ∧
      (90 - ρo ≤ |lat| → a = 90 - |D.ocbLat| ∧ b = O.r + O.rf mlt) ∧
      (90 - ρe ≤ |lat| → |lat| < 90 - ρo → a = |D.ocbLat| - |D.eabLat| ∧ b = ρe - ρo) ∧
      (|lat| < 90 - ρe → a = |D.eabLat| ∧ b = 90 - ρe) := by
  obtain ⟨out, s', h1, -, -, h2⟩ := dualNormal_out hD s hs fresh [(some lat, some mlt)] ow
  have hi : [((some lat : Option ℝ), (some mlt : Option ℝ))][0]? = some (some lat, some mlt) := rfl
  obtain ⟨x, L, M, e1, e2, -, -⟩ := good_at hD hs h1 hi hg
  obtain ⟨x', ⟨r, e4⟩, r1, r2, r3, r4, -⟩ := C35_regions hD s s' hs fresh _ ow out h1 0 lat mlt ρo ρe hi hg
  obtain ⟨L', M', F⟩ := facts hD hg
  have hne : D.hem ≠ 0 := by
    rcases hD.oValid.hem with h | h <;> rw [hD.oHem] at h <;> rw [h] <;> norm_num
  have hlen : out.length = 1 := h2.length_eq.symm
  have hout : out = [(some (D.hem * x), some M, some L, some (O.rf mlt))] := by
    match out, hlen with
    | [o], _ => simpa using e2
  have hxx : x = x' := by
    rw [e2] at e4
    simp only [Option.some.injEq, Prod.mk.injEq] at e4
    exact mul_left_cancel₀ hne e4.1
  subst hxx
  obtain ⟨t', c1, -, -⟩ := calcR_out hD t ht [(some (D.hem * x), some (O.rf mlt))] ref ow'
  rw [href] at c1
  have hem1 : D.hem = 1 ∨ D.hem = -1 := by rw [← hD.oHem]; exact hD.oValid.hem
  have habs : ∀ y : ℝ, 0 ≤ y → |D.hem * y| = y := by
    intro y hy
    rcases hem1 with h | h <;> rw [h]
    · rw [one_mul, abs_of_nonneg hy]
    · rw [neg_one_mul, abs_neg, abs_of_nonneg hy]
  have hsq : D.hem * D.hem = 1 := by rw [← hD.oHem]; exact hD.oValid.hem_sq
  have hO : D.ocbLat = D.hem * |D.ocbLat| := by
    rw [← hD.oLat, ← hD.oValid.hem_blat, hD.oHem, ← mul_assoc, hsq, one_mul]
  have hE : D.eabLat = D.hem * |D.eabLat| := by
    rw [← hD.eLat, ← hD.eValid.hem_blat, hD.eHem, ← mul_assoc, hsq, one_mul]
  have hOE : |D.ocbLat - D.eabLat| = |D.ocbLat| - |D.eabLat| := by
    nth_rewrite 1 [hO]
    nth_rewrite 1 [hE]
    rw [← mul_sub, habs _ (by linarith [hD.order])]
  have hR : 0 < O.r + O.rf mlt := lt_of_le_of_lt (abs_nonneg _) hg.oIn
  have hp90 : |D.ocbLat| < 90 := by rw [← hD.oLat]; exact hD.oValid.pole
  simp only [List.map_cons, List.map_nil, List.zip_cons_cons, List.zip_nil_right, Option.bind_some, F.ob, F.eb,
    Option.map_some, calcREntry, habs x r4.le] at c1
  have hd : |D.hem * (90 - ρo) - D.hem * (90 - ρe)| = ρe - ρo := by
    rw [← mul_sub, habs _ (by linarith)]; ring
  rw [hd, F.abseb, hOE] at c1
  have hE0 := hD.ePos
  have hord := hD.order
  have h90 := hg.equator
  generalize |D.ocbLat| = rO at *
  generalize |D.eabLat| = rE at *
  by_cases hA : x < rE
  · rw [if_pos hA] at c1
    have := r3.2 hA
    exact ⟨x, L, M, s', t', rE, 90 - ρe, by rw [h1, hout], c1, hE0, by linarith, fun h => by linarith,
      fun h => by linarith, fun _ => ⟨rfl, rfl⟩⟩
  · rw [if_neg hA] at c1
    by_cases hB : x < rO
    · rw [if_pos hB] at c1
      have := r2.2 ⟨not_lt.1 hA, hB⟩
      exact ⟨x, L, M, s', t', rO - rE, ρe - ρo, by rw [h1, hout], c1, by linarith, by linarith, fun h => by linarith,
        fun _ _ => ⟨rfl, rfl⟩, fun h => by linarith⟩
    · rw [if_neg hB] at c1
      have := r1.2 (not_lt.1 hB)
      exact ⟨x, L, M, s', t', 90 - rO, O.r + O.rf mlt, by rw [h1, hout], c1, by linarith, hR, fun _ => ⟨rfl, rfl⟩,
        fun _ h => by linarith, fun h => by linarith⟩

/-- C39 for arbitrary arrays of dual latitudes: the scaled radius is the size of the region, whatever the boundaries. -/
theorem C39_scaled_radius {D : DualObj} {O E : Rec} (hD : PairOk D O E) (s : DStore) (hs : s.WF D)
    (pts : List (ℝ × Option ℝ)) (ref : ℕ) (hlen : (s.heap ref).length = pts.length) (ow : Bool) :
    ∃ out s', Coord.calcR D s (pts.map fun p => (some p.1, p.2)) ref ow = .ok (out, s') ∧
      List.Forall₂ (fun p o => ∃ a, o.1 = some a ∧ 0 < a ∧ (|D.ocbLat| ≤ |p.1| → a = 90 - |D.ocbLat|) ∧
        (|D.eabLat| ≤ |p.1| → |p.1| < |D.ocbLat| → a = |D.ocbLat - D.eabLat|) ∧
        (|p.1| < |D.eabLat| → a = |D.eabLat|)) pts out := by
  obtain ⟨s', c1, -, -⟩ := calcR_out hD s hs (pts.map fun p => (some p.1, p.2)) ref ow
  refine ⟨_, s', c1, ?_⟩
  have hp90 : |D.ocbLat| < 90 := by rw [← hD.oLat]; exact hD.oValid.pole
  have hE0 := hD.ePos
  have hord := hD.order
  have hpos : 0 < |D.ocbLat - D.eabLat| := by
    rw [abs_pos, sub_ne_zero]
    intro h; rw [h] at hord; exact lt_irrefl _ hord
  generalize s.heap ref = ms at hlen
  clear c1
  induction pts generalizing ms with
  | nil => simp
  | cons p ps ih =>
    cases ms with
    | nil => simp at hlen
    | cons m ms =>
      refine .cons ?_ (ih ms (by simpa using hlen))
      unfold calcREntry
      simp only []
      split_ifs with h1 h2
      · exact ⟨_, rfl, hE0, fun h => by linarith, fun h => by linarith, fun _ => rfl⟩
      · exact ⟨_, rfl, hpos, fun h => by linarith, fun _ _ => rfl, fun h => absurd h h1⟩
      · exact ⟨_, rfl, by linarith, fun _ => rfl, fun _ h => absurd h h2, fun h => absurd h h1⟩

example : PairOk exDual exRec exEab ∧ GoodPt exRec exEab 65 6 21 31 ∧ (21 : ℝ) < 31 :=
  ⟨exDual_ok, exGood 65 (by norm_num) (by norm_num), by norm_num⟩

/-! ### C64: independence of the other locations -/

theorem Piecewise.unique {rO rE ρo ρe c L x y : ℝ} (hx : Piecewise rO rE ρo ρe c L x) (hy : Piecewise rO rE ρo ρe c L y) :
    x = y := by
  by_cases h1 : c ≤ ρo
  · rw [(hx.1 h1).1, (hy.1 h1).1]
  · by_cases h2 : c ≤ ρe
    · rw [hx.2.1 (not_le.1 h1) h2, hy.2.1 (not_le.1 h1) h2]
    · rw [hx.2.2 (not_le.1 h2), hy.2.2 (not_le.1 h2)]

/-- C64, partial: for a good location the result does not depend on the other locations of the call, on what is stored
or on `overwrite`.  Missing: geometries in which the pole is outside a circle or the boundaries cross, see
`C64_any_geometry_partial`. -/
theorem C64_good_partial {D : DualObj} {O E : Rec} (hD : PairOk D O E) (s₁ s₂ t₁ t₂ : DStore) (h₁ : s₁.WF D) (h₂ : s₂.WF D)
    (f₁ f₂ : ℕ) (pts₁ pts₂ : List (Option ℝ × Option ℝ)) (ow₁ ow₂ : Bool)
    (out₁ out₂ : List (Option ℝ × Option ℝ × Option ℝ × Option ℝ))
    (e₁ : dualNormal D s₁ f₁ pts₁ ow₁ = .ok (out₁, t₁)) (e₂ : dualNormal D s₂ f₂ pts₂ ow₂ = .ok (out₂, t₂)) (i j : ℕ)
    (lat mlt ρo ρe : ℝ) (hi : pts₁[i]? = some (some lat, some mlt)) (hj : pts₂[j]? = some (some lat, some mlt))
    (hg : GoodPt O E lat mlt ρo ρe) : out₁[i]? = out₂[j]? ∧ ∃ o, out₁[i]? = some o := by
  obtain ⟨x, L, M, a1, a2, -, a4⟩ := good_at hD h₁ e₁ hi hg
  obtain ⟨y, L', M', b1, b2, -, b4⟩ := good_at hD h₂ e₂ hj hg
  rw [a1] at b1
  simp only [Except.ok.injEq, Prod.mk.injEq] at b1
  obtain ⟨rfl, rfl, -⟩ := b1
  rw [a2, b2, a4.unique b4]
  exact ⟨rfl, _, rfl⟩

/-- A pair whose OCB circle does not contain the magnetic pole. -/
noncomputable def offOcb : Rec := ⟨0, 20, 5, fun _ => 0, 1, 74⟩
noncomputable def wideEab : Rec := ⟨0, 0, 35, fun _ => 0, 1, 64⟩
noncomputable def offDual : DualObj := ⟨[offOcb], [wideEab], [0], [0], 0, 0, 0, 1, 74, 64⟩

theorem offOcb_valid : offOcb.Valid :=
  ⟨.inl rfl, by norm_num [offOcb], by rw [abs_lt]; constructor <;> norm_num [offOcb]⟩

theorem offDual_ok : PairOk offDual offOcb wideEab :=
  ⟨⟨by simp [offDual], by simp [offDual, DualObj.records], rfl, rfl, by simp [offDual], by simp [offDual], rfl, rfl⟩,
    offOcb_valid, ⟨.inl rfl, by norm_num [wideEab], by rw [abs_lt]; constructor <;> norm_num [wideEab]⟩,
    fun _ => rfl, fun _ => rfl, rfl, rfl, rfl, rfl, by norm_num [offDual], by norm_num [offDual]⟩

theorem offOcb_lat : bLat offOcb 0 = some 65 := by
  unfold bLat offOcb hourAngle
  norm_num
  rw [show (25 : ℝ) = 5 ^ 2 by norm_num, Real.sqrt_sq (by norm_num)]
  norm_num

theorem wideEab_lat : bLat wideEab 0 = some 55 := by
  unfold bLat wideEab hourAngle
  norm_num
  rw [show (1225 : ℝ) = 35 ^ 2 by norm_num, Real.sqrt_sq (by norm_num)]
  norm_num

theorem offOcb_normal (lat : ℝ) (d : ℝ) (hd : 0 ≤ d) (h : (70 - lat) ^ 2 = d ^ 2) :
    ∃ M, normalPt offOcb lat 0 = .ok (90 - d * 16 / 5, M, 0) := by
  obtain ⟨L, M, h1, h2⟩ := C24_colatitude offOcb offOcb_valid lat 0 (by norm_num [offOcb])
  refine ⟨M, ?_⟩
  have hdist : distCentre offOcb lat 0 = d := by
    unfold distCentre polarDist2 colat
    simp only [offOcb, hourAngle]
    rw [show (90 - 1 * lat) ^ 2 + (20 : ℝ) ^ 2 - 2 * (90 - 1 * lat) * 20 * Real.cos (0 * π / 12 - 0 * π / 180) = d ^ 2 by
      norm_num; linarith]
    exact Real.sqrt_sq hd
  rw [hdist] at h2
  simp only [colat, offOcb] at h2
  rw [h1]
  have : L = 90 - d * 16 / 5 := by
    rw [abs_of_pos (by norm_num : (0:ℝ) < 74)] at h2
    norm_num at h2
    linarith
  rw [this]
  rfl

/-- C64 is false: a location that is in none of the three regions is NaN when passed alone, but gets a number when the
call contains a location near the equator as well, because that one is counted in two regions. -/
theorem C64_other_location_refuted : ∃ (D : DualObj) (O E : Rec) (s : DStore) (p q : Option ℝ × Option ℝ), PairOk D O E ∧
    s.WF D ∧ (∃ out s', dualNormal D s 0 [p] false = .ok (out, s') ∧ out.map (·.1) = [none]) ∧
    (∃ out s', dualNormal D s 0 [p, q] false = .ok (out, s') ∧ (out.map (·.1))[0]? = some (some 42)) := by
  have hs : (⟨fun _ => [], none, none, none, none⟩ : DStore).WF offDual :=
    ⟨⟨by simp [DStore.ocb], by simp [DStore.ocb]⟩, ⟨by simp [DStore.eab], by simp [DStore.eab]⟩,
      ⟨by simp [DStore.ocb], by simp [DStore.ocb, Store.slot, Store.slotMlt]⟩,
      ⟨by simp [DStore.eab], by simp [DStore.eab, Store.slot, Store.slotMlt]⟩⟩
  refine ⟨offDual, offOcb, wideEab, _, (some 85, some 0), (some 1, some 0), offDual_ok, hs, ?_⟩
  obtain ⟨f, hf, hmap⟩ := normalArr_map offOcb offOcb_valid
  obtain ⟨M1, n1⟩ := offOcb_normal 85 15 (by norm_num) (by norm_num)
  obtain ⟨M2, n2⟩ := offOcb_normal 1 69 (by norm_num) (by norm_num)
  have i1 : InHem offOcb.hem 85 := (sign_hem 85 (by norm_num)).1
  have i2 : InHem offOcb.hem 1 := (sign_hem 1 (by norm_num)).1
  have fv : ∀ lat L M, InHem offOcb.hem lat → normalPt offOcb lat 0 = .ok (L, M, 0) →
      f (some lat, some 0) = (some L, some M, some 0) := by
    intro lat L M hin hn
    rcases hf (some lat, some 0) with ⟨a, b, e, -, L', M', h1, h2, -⟩ | ⟨h, -⟩
    · simp only [Prod.mk.injEq, Option.some.injEq] at e
      obtain ⟨rfl, rfl⟩ := e
      rw [hn] at h1
      simp only [Except.ok.injEq, Prod.mk.injEq] at h1
      obtain ⟨rfl, rfl, -⟩ := h1
      exact h2
    · exact absurd hin (h lat 0 rfl)
  have f1 := fv 85 _ M1 i1 n1
  have f2 := fv 1 _ M2 i2 n2
  have w1 : wrongHem offOcb.hem (some 85) = false := (wrongHem_iff _ _).2 ⟨_, rfl, i1⟩
  have w2 : wrongHem offOcb.hem (some 1) = false := (wrongHem_iff _ _).2 ⟨_, rfl, i2⟩
  constructor
  · obtain ⟨s', b1, -⟩ := boundStep_out offDual_ok.sel offDual_ok.oDaily offDual_ok.eDaily
      ⟨Function.update (fun _ => []) 0 [some 0], none, none, none, none⟩ ⟨hs.oWF, hs.eWF, hs.oPaired, hs.ePaired⟩ 0 false
    simp only [Function.update_self, List.map_cons, List.map_nil, Option.bind_some, offOcb_lat, wideEab_lat] at b1
    unfold dualNormal
    rw [if_neg (by simp [offDual, DualObj.records]), selRec_sel offDual_ok.sel,
      hmap _ ⟨_, List.mem_cons_self, 85, rfl, i1⟩]
    simp only [bind, Except.bind, List.map_cons, List.map_nil, f1, w1, b1]
    refine ⟨_, s', rfl, ?_⟩
    simp only [List.zip_cons_cons, List.zip_nil_right, List.map_cons, List.map_nil, List.getElem?_cons_zero]
    norm_num [dualEntry, regionCount, absLt, absGe, offDual]
  · obtain ⟨s', b1, -⟩ := boundStep_out offDual_ok.sel offDual_ok.oDaily offDual_ok.eDaily
      ⟨Function.update (fun _ => []) 0 [some 0, some 0], none, none, none, none⟩ ⟨hs.oWF, hs.eWF, hs.oPaired, hs.ePaired⟩ 0 false
    simp only [Function.update_self, List.map_cons, List.map_nil, Option.bind_some, offOcb_lat, wideEab_lat] at b1
    unfold dualNormal
    rw [if_neg (by simp [offDual, DualObj.records]), selRec_sel offDual_ok.sel,
      hmap _ ⟨_, List.mem_cons_self, 85, rfl, i1⟩]
    simp only [bind, Except.bind, List.map_cons, List.map_nil, f1, f2, w1, w2, b1]
    refine ⟨_, s', rfl, ?_⟩
    simp only [List.zip_cons_cons, List.zip_nil_right, List.map_cons, List.map_nil, List.getElem?_cons_zero]
    norm_num [dualEntry, regionCount, absLt, absGe, offDual]

/-! ### C65: no pair selected -/

/-- C65, partial: without a selected pair `normal_coord` returns NaN for every location and `calc_r` NaN radii, and
nothing stored changes.  Missing: the same for `revert_coord`, see the refutations. -/
theorem C65_normal_calc_partial (D : DualObj) (h : D.recInd < 0 ∨ D.records ≤ D.recInd) (s : DStore) (ow : Bool) :
    (∀ fresh pts, ∃ out, dualNormal D s fresh pts ow = .ok (out, s) ∧ out.length = pts.length ∧
      ∀ o ∈ out, o = (none, none, none, none)) ∧
    (∀ pts ref, ∃ out, Coord.calcR D s pts ref ow = .ok (out, s) ∧ out.length = pts.length ∧ ∀ o ∈ out, o.2 = none) := by
  constructor
  · intro fresh pts
    refine ⟨_, by unfold dualNormal; rw [if_pos h], by simp, by simp⟩
  · intro pts ref
    refine ⟨_, by unfold Coord.calcR; rw [if_pos h], by simp, by simp⟩

example : ({ exDual with recInd := -1, ocbRecInd := -1, eabRecInd := -1 } : DualObj).recInd < 0 := by simp

/-- C65 is false for `revert_coord`: with the cursor before the first pair (and the member cursors moved along), a
location between the boundaries is reverted with the boundaries of the last pair, and these are stored. -/
theorem C65_revert_number_refuted : ∃ (D : DualObj) (s : DStore), D.recInd = -1 ∧ D.ocbRecInd = -1 ∧ D.eabRecInd = -1 ∧
    ∃ out s' lat m, dualRevert D s [(some 70, some 6, some 0)] (some 0) false = .ok (out, s') ∧ out = [(some lat, some m)] ∧
      s.ocbLats = none ∧ s'.ocbLats ≠ none := by
  let D : DualObj := ⟨[exRec], [exEab], [0], [0], -1, -1, -1, 1, 74, 64⟩
  let s : DStore := ⟨fun _ => [some 6], none, none, none, none⟩
  have ho := (exGood 65 (by norm_num) (by norm_num))
  have bo := (bLat_cross exRec 6 21 ho.oIn ho.oCross).1
  have be := (bLat_cross exEab 6 31 ho.eIn ho.eCross).1
  obtain ⟨s1, a1, a2, a3, a4, a5, a6, a7, a8⟩ := get_one [exEab] s.eab ⟨by simp [s, DStore.eab], by simp [s, DStore.eab]⟩
    ⟨by simp [s, DStore.eab], by simp [s, DStore.eab, Store.slot, Store.slotMlt]⟩ 0 0 exEab (by norm_num) rfl (fun _ => rfl)
  obtain ⟨s2, c1, c2, c3, c4, c5, c6, c7, c8⟩ := get_one [exRec] ⟨s1.heap, none, none⟩ ⟨by simp, by simp⟩
    ⟨by simp, by simp [Store.slot, Store.slotMlt]⟩ 0 0 exRec (by norm_num) rfl (fun _ => rfl)
  have hh1 : s1.heap 0 = [some 6] := by
    rw [a5, Function.update_self]
    simp [s, DStore.eab, wrapMlt]; norm_num
  have hh2 : s2.heap 0 = [some 6] := by
    rw [c5, Function.update_self]
    simp [hh1, wrapMlt]; norm_num
  have one : ∀ (st : Store) (v : List (Option ℝ)), st.WF 1 → st.Paired → st.lats.isSome → st.slot 0 = some v →
      st.slotMlt 0 = some 0 → st.lats = some [some v] ∧ st.mlts = some [some 0] := by
    intro st v hw hp hl hv hm
    obtain ⟨l, hl⟩ := Option.isSome_iff_exists.1 hl
    obtain ⟨m, hm'⟩ := Option.isSome_iff_exists.1 (hp.1.1 (by simp [hl]))
    have e1 := hw.1 l hl
    have e2 := hw.2 m hm'
    match l, e1, m, e2 with
    | [x], _, [y], _ =>
      rw [Store.slot, hl] at hv
      rw [Store.slotMlt, hm'] at hm
      simp at hv hm
      rw [hl, hm', hv, hm]
      exact ⟨rfl, rfl⟩
  obtain ⟨k1, k2⟩ := one s1 _ a2 a3 a4 a7 a8
  obtain ⟨k3, k4⟩ := one s2 _ c2 c3 c4 c7 c8
  have hb : boundStep D s 0 false = .ok ((s1.heap 0).map (·.bind (bLat exRec)), (s.heap 0).map (·.bind (bLat exEab)),
      ⟨s2.heap, s2.lats, s2.mlts, s1.lats, s1.mlts⟩) := by
    have e1 : getBoundaryLat D.eabRecs ⟨s.heap, s.eabLats, s.eabMlts⟩ 0 (some [0]) true = (s1, none) := a1
    have e2 : getBoundaryLat D.ocbRecs ⟨s1.heap, s.ocbLats, s.ocbMlts⟩ 0 (some [0]) true = (s2, none) := c1
    have p1 : pyIdx D.eabInd D.recInd = .ok 0 := rfl
    have p2 : pyIdx D.ocbInd D.recInd = .ok 0 := rfl
    have q1 : ∀ v m, currentOf (some [some v]) (some [some m]) D.ocbRecInd = .ok (some v, some m) := fun _ _ => rfl
    have q2 : ∀ v m, currentOf (some [some v]) (some [some m]) D.eabRecInd = .ok (some v, some m) := fun _ _ => rfl
    have q3 : currentOf s.ocbLats s.ocbMlts D.ocbRecInd = .ok (none, none) := rfl
    have q4 : currentOf s.eabLats s.eabMlts D.eabRecInd = .ok (none, none) := rfl
    unfold boundStep getBoundaryLats
    simp only [bind, Except.bind, pure, Except.pure, q3, q4, p1, p2, e1, e2, k1, k2, k3, k4, q1, q2]
    rfl
  refine ⟨D, s, rfl, rfl, rfl, ?_⟩
  unfold dualRevert
  have hsel : selRec D.ocbRecs D.ocbRecInd = none := by simp [selRec, D]
  rw [hsel]
  simp only [revertArr, bind, Except.bind]
  rw [if_neg (by norm_num [absGe, D])]
  simp only [hb, hh1, hh2]
  simp only [List.map_cons, List.map_nil, Option.bind_some, bo, be, s]
  refine ⟨_, _, exRec.hem * (90 - 21) - (74 - 70) * (exRec.hem * (90 - 21) - exEab.hem * (90 - 31)) / (74 - 64), 6, rfl,
    ?_, trivial, by rw [k3]; simp⟩
  simp only [List.zip_cons_cons, List.zip_nil_right, List.map_cons, List.map_nil, dualRevertEntry]
  rw [if_neg (by norm_num [D]), if_pos (by norm_num [D])]
  rfl

/-- C65 is false for `revert_coord` at the end: the cursor one past the last pair makes it raise `IndexError`. -/
theorem C65_revert_end_refuted (D : DualObj) (hD : D.recInd = D.records) (hc : selRec D.ocbRecs D.ocbRecInd = none)
    (hlen : D.eabInd.length = D.ocbInd.length) (h0 : 0 < |D.ocbLat|) (h : ℕ → List (Option ℝ)) :
    dualRevert D ⟨h, none, none, none, none⟩ [(some 0, some 6, some 0)] (some 0) false = .error .indexError := by
  have p1 : pyIdx D.eabInd D.recInd = .error .indexError := by
    have h1 : (0 : ℤ) ≤ D.recInd := by rw [hD]; simp [DualObj.records]
    have h2 : D.eabInd.length ≤ D.recInd.toNat := by rw [hD, hlen]; simp [DualObj.records]
    have h3 := List.getElem?_eq_none h2
    simp [pyIdx, pyGet, h1, h3]
  unfold dualRevert
  rw [hc]
  simp only [revertArr, bind, Except.bind]
  rw [if_neg (by simp [absGe, not_le.2 h0])]
  simp [boundStep, getBoundaryLats, p1, currentOf, bind, Except.bind, pure, Except.pure]

/-- The hypotheses of `C65_revert_end_refuted`: one pair, cursor at 1, member cursors at their ends as the setter leaves
them. -/
example : let D : DualObj := ⟨[exRec], [exEab], [0], [0], 1, 1, 1, 1, 74, 64⟩
    D.recInd = D.records ∧ selRec D.ocbRecs D.ocbRecInd = none ∧ D.eabInd.length = D.ocbInd.length ∧ 0 < |D.ocbLat| := by
  refine ⟨rfl, rfl, rfl, by norm_num⟩

end Ocb.Coord
