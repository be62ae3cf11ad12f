import Verif.Props.Dual

/-!
# C64: what the other locations of a call can change, for any geometry
-/

set_option autoImplicit false

namespace Ocb.Coord

/-- The result for one location when the regions of the call do (`bad = false`) or do not add up. -/
noncomputable def dualRow (D : DualObj) (O E : Rec) (f : Option ℝ × Option ℝ → Option ℝ × Option ℝ × Option ℝ) (bad : Bool)
    (p : Option ℝ × Option ℝ) : Option ℝ × Option ℝ × Option ℝ × Option ℝ :=
  (dualEntry D bad (if wrongHem O.hem p.1 then none else p.1) (f p).1 (p.2.bind (bLat O)) (p.2.bind (bLat E)),
    (f p).2.1, (f p).1, (f p).2.2)

theorem dualEntry_nan {D : DualObj} {O E : Rec} {f : Option ℝ × Option ℝ → Option ℝ × Option ℝ × Option ℝ}
    (hf : ∀ p, NormalOut O p (f p)) (bad : Bool) (p : Option ℝ × Option ℝ) (h : (f p).1 = none) :
    dualEntry D bad (if wrongHem O.hem p.1 then none else p.1) (f p).1 (p.2.bind (bLat O)) (p.2.bind (bLat E)) = none := by
  rw [h]
  obtain ⟨l, m⟩ := p
  cases hw : wrongHem O.hem l with
  | true => simp only [hw, if_true]; exact dualEntry_none _ _ _ _
  | false =>
    obtain ⟨lat, rfl, hin⟩ := (wrongHem_iff _ _).1 hw
    cases m with
    | none => simp [hw, dualEntry, absLt, absGe]
    | some m =>
      rcases hf (some lat, some m) with ⟨a, b, -, -, L, M, -, h2, -⟩ | ⟨h2, -⟩
      · rw [h2] at h; simp at h
      · exact absurd hin (h2 lat m rfl)

/-- The form of the result: each location has its own row, except that one flag is common to the call, and that a call
without any location of the hemisphere gives only NaN. -/
theorem dual_rows {D : DualObj} {O E : Rec} (hD : PairOk D O E) :
    ∃ f, (∀ p, NormalOut O p (f p)) ∧
      (∀ l mlt, wrongHem O.hem l = true → (f (l, some mlt)).2.2 = some (O.rf mlt)) ∧ ∀ (s : DStore), s.WF D → ∀ (fresh : ℕ) (pts : List (Option ℝ × Option ℝ)) (ow : Bool),
      ∃ out s', dualNormal D s fresh pts ow = .ok (out, s') ∧
        (((∀ p ∈ pts, ∀ lat, p.1 = some lat → ¬ InHem O.hem lat) ∧ out = pts.map fun _ => (none, none, none, none)) ∨
        ∃ bad : Bool, out = pts.map (dualRow D O E f bad) ∧
          (bad = false → ∀ q, pts = [q] → (dualRow D O E f true q).1 = (dualRow D O E f false q).1)) := by
  obtain ⟨f, hf, hmap⟩ := normalArr_map O hD.oValid
  refine ⟨f, hf, fun l mlt hl => ?_, fun s hs fresh pts ow => ?_⟩
  · have hhem : InHem O.hem O.hem := by
      refine inHem_of hD.oValid.1 ?_
      rcases hD.oValid.1 with h | h <;> rw [h] <;> norm_num
    have hg : wrongHem O.hem (some O.hem) = false := (wrongHem_iff _ _).2 ⟨_, rfl, hhem⟩
    have h1 := hmap [(l, some mlt), (some O.hem, some 0)] ⟨(some O.hem, some 0), by simp, O.hem, rfl, hhem⟩
    unfold normalArr at h1
    simp only [List.map_cons, List.map_nil, List.any_cons, List.all_cons, hl, hg, Bool.true_or, Bool.true_and, Bool.false_and,
      Bool.and_false, Bool.false_eq_true, if_false, if_true, bind, Except.bind] at h1
    split at h1
    · cases h1
    · rename_i out hout
      unfold mapE at hout
      simp only [hl, if_true, normalEntry, pure, Except.pure] at hout
      split at hout
      · cases hout
      · simp only [Except.ok.injEq, pure, Except.pure, Prod.mk.injEq] at hout h1
        rw [← hout] at h1
        rw [← (List.cons.inj h1.1).1]
  unfold dualNormal
  rw [if_neg (by have := hD.sel.pos; have := hD.sel.lt; omega), selRec_sel hD.sel]
  simp only [bind, Except.bind]
  by_cases hex : ∃ p ∈ pts, ∃ lat, p.1 = some lat ∧ InHem O.hem lat
  · rw [hmap pts hex]
    simp only []
    by_cases hall : ((pts.map f).all fun o => o.1.isNone) = true
    · rw [if_pos hall]
      have hnone : ∀ p ∈ pts, (f p).1 = none := fun p hp => by
        rw [List.all_eq_true] at hall
        exact Option.isNone_iff_eq_none.1 (hall (f p) (List.mem_map.2 ⟨p, hp, rfl⟩))
      refine ⟨_, s, rfl, .inr ⟨true, ?_, by simp⟩⟩
      rw [List.map_map]
      refine List.map_congr_left fun p hp => ?_
      simp only [Function.comp, dualRow, dualEntry_nan hf true p (hnone p hp)]
      rw [hnone p hp]
    · rw [if_neg hall]
      obtain ⟨s', b1, -⟩ := boundStep_out hD.sel hD.oDaily hD.eDaily
        { s with heap := Function.update s.heap fresh (pts.map (·.2)) } ⟨hs.oWF, hs.eWF, hs.oPaired, hs.ePaired⟩ fresh ow
      simp only [Function.update_self] at b1
      rw [b1]
      simp only [pure, Except.pure]
      refine ⟨_, s', rfl, .inr ⟨decide ((List.map (fun r : (Option ℝ × Option ℝ × Option ℝ × Option ℝ) × Option ℝ × Option ℝ =>
          regionCount D r.1.1 r.1.2.1 r.2.1 r.2.2)
          (((pts.map fun p => if wrongHem O.hem p.1 then none else p.1).zip (pts.map f)).zip
            (((pts.map (·.2)).map (·.bind (bLat O))).zip ((pts.map (·.2)).map (·.bind (bLat E)))))).sum <
          (pts.map fun p => if wrongHem O.hem p.1 then none else p.1).length), ?_, ?_⟩⟩
      · rw [List.map_map, List.map_map, List.zip_map', List.zip_map', List.zip_map', List.map_map]
        rfl
      · rintro hbad q rfl
        simp only [List.map_cons, List.map_nil, List.zip_cons_cons, List.zip_nil_right, List.sum_cons, List.sum_nil,
          List.length_cons, List.length_nil, decide_eq_false_iff_not, not_lt] at hbad
        unfold regionCount at hbad
        simp only [dualRow]
        generalize (if wrongHem O.hem q.1 then none else q.1) = l at hbad ⊢
        generalize q.2.bind (bLat O) = ob at hbad ⊢
        generalize q.2.bind (bLat E) = eb at hbad ⊢
        generalize (f q).1 = ol at hbad ⊢
        unfold dualEntry
        cases h1 : absGe ol (some D.ocbLat) with
        | true => simp
        | false =>
          rw [h1] at hbad
          cases l with
          | none => simp [absLt] at hbad
          | some l =>
            cases eb with
            | none => simp [absLt, absGe] at hbad
            | some e =>
              cases ob with
              | none =>
                by_cases h2 : absLt (some l) (some e) = true
                · simp [h2]
                · simp only [absLt, decide_eq_true_eq] at h2
                  simp [absLt, h2] at hbad
              | some o =>
                by_cases h2 : absLt (some l) (some e) = true
                · simp [h2]
                · by_cases h3 : (absLt (some l) (some o) && absGe (some l) (some e)) = true
                  · simp [h2, h3]
                  · rw [Bool.not_eq_true] at h2 h3
                    rw [h2, h3] at hbad
                    simp at hbad
  · push Not at hex
    obtain ⟨out, lats, h1, rfl⟩ := normalArr_nan O pts hex
    rw [h1]
    simp only []
    rw [if_pos (by simp)]
    exact ⟨_, s, rfl, .inl ⟨hex, by rw [List.map_map]; rfl⟩⟩

/-- A location is in one of the three regions of the code: poleward of the OCB in OCB coordinates (`L` is the OCB latitude),
between the boundaries or equatorward of the EAB at its local time.  `bLat` is the latitude of a boundary, see `bLat_cross`. -/
def InRegion (D : DualObj) (O E : Rec) (lat mlt L : ℝ) : Prop :=
  |D.ocbLat| ≤ |L| ∨ (∃ o e, bLat O mlt = some o ∧ bLat E mlt = some e ∧ |e| ≤ |lat| ∧ |lat| < |o|) ∨
    ∃ e, bLat E mlt = some e ∧ |lat| < |e|

theorem dualEntry_in {D : DualObj} {O E : Rec} {lat mlt L : ℝ} (h : InRegion D O E lat mlt L) :
    dualEntry D true (some lat) (some L) (bLat O mlt) (bLat E mlt) = dualEntry D false (some lat) (some L) (bLat O mlt) (bLat E mlt) := by
  unfold dualEntry
  rcases h with h | ⟨o, e, h1, h2, h3, h4⟩ | ⟨e, h1, h2⟩
  · have : absGe (some L) (some D.ocbLat) = true := by simpa [absGe] using h
    simp [this]
  · rw [h1, h2]
    have a1 : absLt (some lat) (some e) = false := by simpa [absLt] using h3
    have a2 : absLt (some lat) (some o) = true := by simpa [absLt] using h4
    have a3 : absGe (some lat) (some e) = true := by simpa [absGe] using h3
    simp [a1, a2, a3]
  · rw [h1]
    have a1 : absLt (some lat) (some e) = true := by simpa [absLt] using h2
    cases bLat O mlt <;> simp [a1]

theorem dualEntry_out {D : DualObj} {O E : Rec} {lat mlt L : ℝ} (h : ¬ InRegion D O E lat mlt L) :
    dualEntry D true (some lat) (some L) (bLat O mlt) (bLat E mlt) = none ∧
      dualEntry D false (some lat) (some L) (bLat O mlt) (bLat E mlt) = some L := by
  unfold InRegion at h
  push Not at h
  obtain ⟨h1, h2, h3⟩ := h
  have a0 : absGe (some L) (some D.ocbLat) = false := by simpa [absGe] using h1
  unfold dualEntry
  cases hE : bLat E mlt with
  | none => cases hO : bLat O mlt <;> simp [a0]
  | some e =>
    have a1 : absLt (some lat) (some e) = false := by simpa [absLt] using h3 e hE
    cases hO : bLat O mlt with
    | none => simp [a0, a1]
    | some o =>
      have a2 : absLt (some lat) (some o) = false := by
        simpa [absLt] using h2 o e hO hE (h3 e hE)
      simp [a0, a1, a2]

/-- C64, for any geometry: two calls give a location of the hemisphere the same local time, OCB latitude and radius
correction, and also the same dual latitude if it is in one of the regions.  Otherwise the dual latitude is NaN or the OCB
latitude; it is NaN if the location is passed alone.  Missing: that it is NaN in every call, which is false
(`C64_other_location_refuted`). -/
theorem C64_any_geometry_partial {D : DualObj} {O E : Rec} (hD : PairOk D O E) (s₁ s₂ t₁ t₂ : DStore) (h₁ : s₁.WF D)
    (h₂ : s₂.WF D) (f₁ f₂ : ℕ) (pts₁ pts₂ : List (Option ℝ × Option ℝ)) (ow₁ ow₂ : Bool)
    (out₁ out₂ : List (Option ℝ × Option ℝ × Option ℝ × Option ℝ))
    (e₁ : dualNormal D s₁ f₁ pts₁ ow₁ = .ok (out₁, t₁)) (e₂ : dualNormal D s₂ f₂ pts₂ ow₂ = .ok (out₂, t₂)) (i j : ℕ)
    (lat mlt : ℝ) (hin : InHem D.hem lat) (hi : pts₁[i]? = some (some lat, some mlt))
    (hj : pts₂[j]? = some (some lat, some mlt)) :
    ∃ b₁ b₂ L M, normalPt O lat mlt = .ok (L, M, O.rf mlt) ∧
      out₁[i]? = some (b₁, some M, some L, some (O.rf mlt)) ∧ out₂[j]? = some (b₂, some M, some L, some (O.rf mlt)) ∧
      (InRegion D O E lat mlt L → b₁ = b₂) ∧
      (¬ InRegion D O E lat mlt L → (b₁ = none ∨ b₁ = some L) ∧ (pts₁.length = 1 → b₁ = none)) := by
  obtain ⟨f, hf, -, hrows⟩ := dual_rows hD
  have hinO : InHem O.hem lat := by rw [hD.oHem]; exact hin
  have hw : wrongHem O.hem (some lat) = false := (wrongHem_iff _ _).2 ⟨lat, rfl, hinO⟩
  obtain ⟨L, M, n1, n2⟩ : ∃ L M, normalPt O lat mlt = .ok (L, M, O.rf mlt) ∧
      f (some lat, some mlt) = (some L, some M, some (O.rf mlt)) := by
    rcases hf (some lat, some mlt) with ⟨a, b, e, -, L, M, h1, h2, -⟩ | ⟨h, -⟩
    · simp only [Prod.mk.injEq, Option.some.injEq] at e
      obtain ⟨rfl, rfl⟩ := e
      exact ⟨L, M, h1, h2⟩
    · exact absurd hinO (h lat mlt rfl)
  have hrow : ∀ bad, dualRow D O E f bad (some lat, some mlt) =
      (dualEntry D bad (some lat) (some L) (bLat O mlt) (bLat E mlt), some M, some L, some (O.rf mlt)) := by
    intro bad
    simp only [dualRow, hw, n2, Option.bind_some, Bool.false_eq_true, if_false]
  have hone : ∀ {s t : DStore} {fr : ℕ} {pts : List (Option ℝ × Option ℝ)} {ow : Bool} {out} {k : ℕ}, s.WF D →
      dualNormal D s fr pts ow = .ok (out, t) → pts[k]? = some (some lat, some mlt) →
      ∃ bad, out[k]? = some (dualRow D O E f bad (some lat, some mlt)) ∧
        (pts.length = 1 → (dualRow D O E f bad (some lat, some mlt)).1 = (dualRow D O E f true (some lat, some mlt)).1) := by
    intro s t fr pts ow out k hs he hk
    obtain ⟨out', s', a1, a2⟩ := hrows s hs fr pts ow
    rw [he] at a1
    simp only [Except.ok.injEq, Prod.mk.injEq] at a1
    obtain ⟨rfl, rfl⟩ := a1
    rcases a2 with ⟨a2, -⟩ | ⟨bad, rfl, a3⟩
    · exact absurd hinO (a2 _ (List.mem_of_getElem? hk) lat rfl)
    · refine ⟨bad, by rw [List.getElem?_map, hk]; rfl, fun hl => ?_⟩
      obtain ⟨q, rfl⟩ := List.length_eq_one_iff.1 hl
      have hq : q = (some lat, some mlt) := by
        cases k with
        | zero => simpa using hk
        | succ k => simp at hk
      cases bad with
      | true => rfl
      | false => rw [← hq]; exact (a3 rfl q rfl).symm
  obtain ⟨b₁, r₁, q₁⟩ := hone h₁ e₁ hi
  obtain ⟨b₂, r₂, -⟩ := hone h₂ e₂ hj
  rw [hrow] at r₁ r₂
  rw [hrow, hrow] at q₁
  refine ⟨_, _, L, M, n1, r₁, r₂, fun hr => ?_, fun hr => ?_⟩
  · have := dualEntry_in (O := O) (E := E) hr
    cases b₁ <;> cases b₂ <;> first | rfl | exact this | exact this.symm
  · obtain ⟨c1, c2⟩ := dualEntry_out (O := O) (E := E) hr
    refine ⟨?_, fun hl => by rw [← c1]; exact q₁ hl⟩
    cases b₁
    · exact .inr c2
    · exact .inl c1

/-- C64, also for the other hemisphere: coordinates of a location that is not in the hemisphere are NaN in every call. -/
theorem C64_wrong_hemisphere {D : DualObj} {O E : Rec} (hD : PairOk D O E) (s t : DStore) (hs : s.WF D) (fresh : ℕ)
    (pts : List (Option ℝ × Option ℝ)) (ow : Bool) (out : List (Option ℝ × Option ℝ × Option ℝ × Option ℝ))
    (he : dualNormal D s fresh pts ow = .ok (out, t)) (i : ℕ) (p : Option ℝ × Option ℝ) (hi : pts[i]? = some p)
    (hp : ∀ lat mlt, p = (some lat, some mlt) → ¬ InHem D.hem lat) :
    ∃ r, out[i]? = some (none, none, none, r) := by
  obtain ⟨f, hf, -, hrows⟩ := dual_rows hD
  obtain ⟨out', s', a1, a2⟩ := hrows s hs fresh pts ow
  rw [he] at a1
  simp only [Except.ok.injEq, Prod.mk.injEq] at a1
  obtain ⟨rfl, rfl⟩ := a1
  rcases a2 with ⟨-, rfl⟩ | ⟨bad, rfl, -⟩
  · exact ⟨none, by rw [List.getElem?_map, hi]; rfl⟩
  · rcases hf p with ⟨a, b, rfl, hin, -⟩ | ⟨-, h1, h2⟩
    · rw [hD.oHem] at hin; exact absurd hin (hp a b rfl)
    · refine ⟨(f p).2.2, ?_⟩
      rw [List.getElem?_map, hi, Option.map_some, dualRow, dualEntry_nan hf bad p h1, h1, h2]

/-- C64 is false for the radius correction of a location of the other hemisphere: it is NaN if the location is passed alone,
and a number if it is passed together with a location of the hemisphere. -/
theorem C64_r_corr_refuted : ∃ (D : DualObj) (O E : Rec) (s : DStore) (p q : Option ℝ × Option ℝ), PairOk D O E ∧ s.WF D ∧
    (∃ out s', dualNormal D s 0 [p] false = .ok (out, s') ∧ out[0]? = some (none, none, none, none)) ∧
    ∃ out s', dualNormal D s 0 [p, q] false = .ok (out, s') ∧ out[0]? = some (none, none, none, some 0) := by
  obtain ⟨f, hf, hr, hrows⟩ := dual_rows exDual_ok
  have hno : ∀ lat : ℝ, some (-70 : ℝ) = some lat → ¬ InHem exRec.hem lat := by
    intro lat h hin
    rw [Option.some.injEq] at h
    subst h
    have h1 := hin.abs
    rw [show exRec.hem = 1 from rfl, one_mul, abs_of_neg (by norm_num : (-70:ℝ) < 0)] at h1
    norm_num at h1
  have hw : wrongHem exRec.hem (some (-70)) = true := by
    rw [← Bool.not_eq_false, wrongHem_iff]
    rintro ⟨lat, h1, h2⟩
    exact hno lat h1 h2
  have hin : InHem exRec.hem 80 := (exGood 80 (by norm_num) (by norm_num)).hem
  refine ⟨exDual, exRec, exEab, _, (some (-70), some 6), (some 80, some 6), exDual_ok, exStore_wf, ?_, ?_⟩
  · obtain ⟨out, s', h1, h2⟩ := hrows _ exStore_wf 0 [(some (-70), some 6)] false
    refine ⟨out, s', h1, ?_⟩
    unfold dualNormal at h1
    rw [if_neg (by simp [exDual, DualObj.records]), selRec_sel exDual_ok.sel] at h1
    obtain ⟨o', l', h3, h4⟩ := normalArr_nan exRec [(some (-70), some 6)] (by
      intro p hp lat hl
      rw [List.mem_singleton] at hp
      subst hp
      exact hno lat hl)
    rw [h3, h4] at h1
    simp only [bind, Except.bind, List.map_cons, List.map_nil, List.all_cons, List.all_nil, Option.isNone_none, Bool.and_self,
      if_true, pure, Except.pure, Except.ok.injEq, Prod.mk.injEq] at h1
    rw [← h1.1]
    rfl
  · obtain ⟨out, s', h1, h2⟩ := hrows _ exStore_wf 0 [(some (-70), some 6), (some 80, some 6)] false
    refine ⟨out, s', h1, ?_⟩
    rcases h2 with ⟨h2, -⟩ | ⟨bad, rfl, -⟩
    · exact absurd hin (h2 (some 80, some 6) (by simp) 80 rfl)
    · have hrc := hr (some (-70)) 6 hw
      rcases hf (some (-70), some 6) with ⟨a, b, e, hin', -⟩ | ⟨-, n1, n2⟩
      · simp only [Prod.mk.injEq, Option.some.injEq] at e
        exact absurd hin' (by rw [← e.1]; exact hno _ rfl)
      · rw [List.map_cons, List.getElem?_cons_zero, dualRow, dualEntry_nan hf bad _ n1, n1, n2, hrc]
        rfl

/-- Two calls to which `C64_any_geometry_partial` applies, with a pair whose OCB circle does not contain the pole. -/
example : ∃ (s : DStore) (out₁ out₂ : List (Option ℝ × Option ℝ × Option ℝ × Option ℝ)) (t₁ t₂ : DStore),
    PairOk offDual offOcb wideEab ∧ s.WF offDual ∧ InHem offDual.hem 85 ∧
    dualNormal offDual s 0 [(some 85, some 0)] false = .ok (out₁, t₁) ∧
    dualNormal offDual s 0 [(some 85, some 0), (some 1, some 0)] false = .ok (out₂, t₂) := by
  have hs : (⟨fun _ => [], none, none, none, none⟩ : DStore).WF offDual :=
    ⟨⟨by simp [DStore.ocb], by simp [DStore.ocb]⟩, ⟨by simp [DStore.eab], by simp [DStore.eab]⟩,
      ⟨by simp [DStore.ocb], by simp [DStore.ocb, Store.slot, Store.slotMlt]⟩,
      ⟨by simp [DStore.eab], by simp [DStore.eab, Store.slot, Store.slotMlt]⟩⟩
  obtain ⟨o1, t1, h1, -⟩ := dualNormal_out offDual_ok _ hs 0 [(some 85, some 0)] false
  obtain ⟨o2, t2, h2, -⟩ := dualNormal_out offDual_ok _ hs 0 [(some 85, some 0), (some 1, some 0)] false
  exact ⟨_, o1, o2, t1, t2, offDual_ok, hs, (sign_hem 85 (by norm_num)).1, h1, h2⟩

end Ocb.Coord
