import Verif.Model.VortOut
import Verif.Props.Vort
import Verif.Props.Cycle
import Verif.Props.Dual

/-!
# The output of `vort2ascii_ocb`

C106: the hemisphere found from the data.  C107: which data get a row and with which boundary record.  C108: the values of
a row.  C109: a boundary object of the other hemisphere.
-/

set_option autoImplicit false

namespace Ocb.VortOut

open Ocb.Vort (F Table Conv Line numKeys Block Entry Lists)
open Ocb.Coord (Rec DualObj DStore normalArr dualNormal selRec normalPt InHem NormalOut)
open Ocb.Cycle (Cycler drive IsBoundary At Cand NondecOn StrictOn Close NoFarther NoOverlap)

/-! ### the hemisphere -/

theorem mem_red {l : List F} {x : ℝ} : x ∈ l.reduceOption ↔ some x ∈ l := by
  simp [List.reduceOption]

theorem nanMax_spec {l : List F} {m : ℝ} : nanMax l = some m ↔ some m ∈ l ∧ ∀ x, some x ∈ l → x ≤ m := by
  unfold nanMax
  rw [List.max?_eq_some_iff]
  simp [mem_red]

theorem nanMin_spec {l : List F} {m : ℝ} : nanMin l = some m ↔ some m ∈ l ∧ ∀ x, some x ∈ l → m ≤ x := by
  unfold nanMin
  rw [List.min?_eq_some_iff]
  simp [mem_red]

theorem nan_none {l : List F} : (nanMax l = none ↔ ∀ x, some x ∉ l) ∧ (nanMin l = none ↔ ∀ x, some x ∉ l) := by
  unfold nanMax nanMin
  rw [List.max?_eq_none_iff, List.min?_eq_none_iff, List.eq_nil_iff_forall_not_mem]
  simp [mem_red]

theorem nan_both {l : List F} (h : ∃ x, some x ∈ l) : ∃ a b, nanMin l = some a ∧ nanMax l = some b := by
  obtain ⟨x, hx⟩ := h
  cases h1 : nanMin l with
  | none => exact absurd hx (nan_none.2.1 h1 x)
  | some a =>
    cases h2 : nanMax l with
    | none => exact absurd hx (nan_none.1.1 h2 x)
    | some b => exact ⟨a, b, rfl, rfl⟩

theorem choose_eq {l : List F} {a b : ℝ} (h1 : nanMin l = some a) (h2 : nanMax l = some b) :
    chooseHem l = if (SignType.sign b : ℤ) = 0 then .ok (SignType.sign a : ℤ)
      else if (SignType.sign b : ℤ) ≠ (SignType.sign a : ℤ) then .error .valueError else .ok (SignType.sign b : ℤ) := by
  unfold chooseHem sgn
  rw [h1, h2]
  rfl

/-- C106: the hemisphere found is 1 exactly for data with at least one number and only positive ones. -/
theorem C106_north (l : List F) : chooseHem l = .ok 1 ↔ (∃ x, some x ∈ l) ∧ ∀ x, some x ∈ l → 0 < x := by
  by_cases h : ∃ x, some x ∈ l
  · obtain ⟨a, b, h1, h2⟩ := nan_both h
    obtain ⟨a1, a2⟩ := nanMin_spec.1 h1
    obtain ⟨b1, b2⟩ := nanMax_spec.1 h2
    have hab := a2 b b1
    rw [choose_eq h1 h2]
    constructor
    · intro e
      refine ⟨h, fun x hx => lt_of_lt_of_le ?_ (a2 x hx)⟩
      rcases lt_trichotomy a 0 with ha | ha | ha <;> rcases lt_trichotomy b 0 with hb | hb | hb <;>
        simp_all [sign_pos, sign_neg]
    · rintro ⟨-, e⟩
      have ha := e a a1
      have hb := e b b1
      simp [sign_pos ha, sign_pos hb]
  · constructor
    · intro e
      exfalso
      unfold chooseHem sgn at e
      rw [nan_none.1.2 fun x hx => h ⟨x, hx⟩] at e
      simp at e
    · rintro ⟨e, -⟩
      exact absurd e h

/-- C106: the hemisphere found is -1 exactly for data with a negative number and no positive ones. -/
theorem C106_south (l : List F) : chooseHem l = .ok (-1) ↔ (∃ x, some x ∈ l ∧ x < 0) ∧ ∀ x, some x ∈ l → x ≤ 0 := by
  by_cases h : ∃ x, some x ∈ l
  · obtain ⟨a, b, h1, h2⟩ := nan_both h
    obtain ⟨a1, a2⟩ := nanMin_spec.1 h1
    obtain ⟨b1, b2⟩ := nanMax_spec.1 h2
    have hab := a2 b b1
    rw [choose_eq h1 h2]
    constructor
    · intro e
      have hh : a < 0 ∧ b ≤ 0 := by
        rcases lt_trichotomy a 0 with ha | ha | ha <;> rcases lt_trichotomy b 0 with hb | hb | hb <;>
          simp_all [sign_pos, sign_neg, le_of_lt]
      exact ⟨⟨a, a1, hh.1⟩, fun x hx => le_trans (b2 x hx) hh.2⟩
    · rintro ⟨⟨x, hx, hx0⟩, e⟩
      have ha : a < 0 := lt_of_le_of_lt (a2 x hx) hx0
      rcases (e b b1).lt_or_eq with hb | hb
      · simp [sign_neg ha, sign_neg hb]
      · simp [sign_neg ha, hb]
  · constructor
    · intro e
      exfalso
      unfold chooseHem sgn at e
      rw [nan_none.1.2 fun x hx => h ⟨x, hx⟩] at e
      simp at e
    · rintro ⟨⟨x, e, -⟩, -⟩
      exact absurd ⟨x, e⟩ h

/-- Data with at least one number other than zero, all numbers other than zero of one sign. -/
def OneSided (l : List F) (h : ℤ) : Prop :=
  (∃ x, some x ∈ l ∧ x ≠ 0) ∧ ∀ x, some x ∈ l → x = 0 ∨ (SignType.sign x : ℤ) = h

/-- C106: data of one hemisphere without points on the equator are recognised, and a hemisphere is only reported for
data of this hemisphere.  Missing: points on the equator. -/
theorem C106_found_partial (l : List F) (h : ℤ) (hh : h = 1 ∨ h = -1) :
    (chooseHem l = .ok h → OneSided l h) ∧ (OneSided l h → some 0 ∉ l → chooseHem l = .ok h) := by
  rcases hh with rfl | rfl
  · rw [C106_north]
    constructor
    · rintro ⟨⟨x, hx⟩, e⟩
      exact ⟨⟨x, hx, (e x hx).ne'⟩, fun y hy => .inr (by simp [sign_pos (e y hy)])⟩
    · rintro ⟨⟨x, hx, -⟩, e⟩ h0
      refine ⟨⟨x, hx⟩, fun y hy => ?_⟩
      rcases e y hy with rfl | hs
      · exact absurd hy h0
      · rcases lt_trichotomy y 0 with hy0 | hy0 | hy0
        · simp [sign_neg hy0] at hs
        · simp [hy0] at hs
        · exact hy0
  · rw [C106_south]
    constructor
    · rintro ⟨⟨x, hx, hx0⟩, e⟩
      refine ⟨⟨x, hx, hx0.ne⟩, fun y hy => ?_⟩
      rcases (e y hy).lt_or_eq with hy0 | hy0
      · exact .inr (by simp [sign_neg hy0])
      · exact .inl hy0
    · rintro ⟨⟨x, hx, hx0⟩, e⟩ h0
      have key : ∀ y, some y ∈ l → y < 0 := by
        intro y hy
        rcases e y hy with rfl | hs
        · exact absurd hy h0
        · rcases lt_trichotomy y 0 with hy0 | hy0 | hy0
          · exact hy0
          · simp [hy0] at hs
          · simp [sign_pos hy0] at hs
      exact ⟨⟨x, hx, key x hx⟩, fun y hy => (key y hy).le⟩

/-- C106 is false for the equator: a point on it next to northern data is refused, next to southern data it is not. -/
theorem C106_equator_refuted (x : ℝ) (hx : 0 < x) : OneSided [some 0, some x] 1 ∧ OneSided [some 0, some (-x)] (-1) ∧
    chooseHem [some 0, some x] = .error .valueError ∧ chooseHem [some 0, some (-x)] = .ok (-1) := by
  refine ⟨⟨⟨x, by simp, hx.ne'⟩, ?_⟩, ⟨⟨-x, by simp, by simpa using hx.ne'⟩, ?_⟩, ?_, ?_⟩
  · intro y hy
    simp only [List.mem_cons, Option.some.injEq, List.not_mem_nil, or_false] at hy
    rcases hy with rfl | rfl
    · exact .inl rfl
    · exact .inr (by simp [sign_pos hx])
  · intro y hy
    simp only [List.mem_cons, Option.some.injEq, List.not_mem_nil, or_false] at hy
    rcases hy with rfl | rfl
    · exact .inl rfl
    · exact .inr (by rw [sign_neg (by linarith)]; rfl)
  · have h1 : nanMin [some 0, some x] = some 0 := nanMin_spec.2 ⟨by simp, by simp [hx.le]⟩
    have h2 : nanMax [some 0, some x] = some x := nanMax_spec.2 ⟨by simp, by simp [hx.le]⟩
    rw [choose_eq h1 h2]
    simp [sign_pos hx]
  · rw [C106_south]
    exact ⟨⟨-x, by simp, by linarith⟩, by simp [hx.le]⟩

/-- C106: data on both sides are refused, and so are data without a number. -/
theorem C106_refused (l : List F) :
    ((∃ x y, some x ∈ l ∧ some y ∈ l ∧ x < 0 ∧ 0 < y) → chooseHem l = .error .valueError) ∧
    ((∀ x, some x ∉ l) → chooseHem l = .error .valueError) := by
  constructor
  · rintro ⟨x, y, hx, hy, hx0, hy0⟩
    obtain ⟨a, b, h1, h2⟩ := nan_both ⟨x, hx⟩
    have ha : a < 0 := lt_of_le_of_lt ((nanMin_spec.1 h1).2 x hx) hx0
    have hb : 0 < b := lt_of_lt_of_le hy0 ((nanMax_spec.1 h2).2 y hy)
    rw [choose_eq h1 h2]
    simp [sign_neg ha, sign_pos hb]
  · intro h
    unfold chooseHem sgn
    rw [nan_none.1.2 h]
    rfl

example : chooseHem [some (-75), none, some 0] = .ok (-1) :=
  (C106_south _).2 ⟨⟨-75, by simp, by norm_num⟩, by simp⟩

/-! ### the selection -/

/-- All columns have one length. -/
structure Even (saveAll : Bool) (t : Table) : Prop where
  year : t.year.length = t.dtime.length
  month : t.month.length = t.dtime.length
  day : t.day.length = t.dtime.length
  uth : t.uth.length = t.dtime.length
  col : ∀ k ∈ numKeys saveAll, (t.col k).length = t.dtime.length

theorem keys3 (saveAll : Bool) :
    "CENTRE_MLAT" ∈ numKeys saveAll ∧ "MLT" ∈ numKeys saveAll ∧ "VORTICITY" ∈ numKeys saveAll := by
  cases saveAll <;> decide

theorem pick_get {α : Type} {idx : List ℕ} {l : List α} (h : ∀ i ∈ idx, i < l.length) (j : ℕ) :
    (pick idx l)[j]? = idx[j]?.bind fun i : ℕ => l[i]? := by
  induction idx generalizing j with
  | nil => simp [pick]
  | cons a idx ih =>
    have ha := h a List.mem_cons_self
    have e : pick (a :: idx) l = l[a] :: pick idx l := by
      simp [pick, List.getElem?_eq_getElem ha]
    rw [e]
    cases j with
    | zero => simp [List.getElem?_eq_getElem ha]
    | succ j =>
      simp only [List.getElem?_cons_succ]
      exact ih (fun i hi => h i (List.mem_cons_of_mem _ hi)) j

theorem pick_range {α : Type} (l : List α) : pick (List.range l.length) l = l := by
  apply List.ext_getElem?
  intro j
  rw [pick_get (by simp)]
  by_cases h : j < l.length
  · simp [h]
  · simp [h]

theorem igood_mem {lats : List F} {h : ℤ} {i : ℕ} :
    i ∈ igood lats h ↔ ∃ x : ℝ, lats[i]? = some (some x) ∧ (SignType.sign x : ℤ) = h := by
  unfold igood
  rw [List.mem_filter, List.mem_range]
  constructor
  · rintro ⟨h1, h2⟩
    rw [List.getElem?_eq_getElem h1] at h2 ⊢
    cases hx : lats[i] with
    | none => simp [hx, sgn] at h2
    | some x => exact ⟨x, rfl, by simpa [hx, sgn] using h2⟩
  · rintro ⟨x, h1, h2⟩
    exact ⟨(List.getElem?_eq_some_iff.1 h1).1, by simp [h1, sgn, h2]⟩

theorem igood_lt {lats : List F} {h : ℤ} {i : ℕ} (hi : i ∈ igood lats h) : i < lats.length := by
  obtain ⟨x, h1, -⟩ := igood_mem.1 hi
  exact (List.getElem?_eq_some_iff.1 h1).1

theorem igood_sorted (lats : List F) (h : ℤ) : (igood lats h).Pairwise (· < ·) :=
  List.Pairwise.filter _ List.pairwise_lt_range

theorem igood_all {lats : List F} {h : ℤ} (e : (igood lats h).length = lats.length) :
    igood lats h = List.range lats.length := by
  unfold igood at e ⊢
  have : ((List.range lats.length).filter fun i => decide (sgn ((lats[i]?).getD none) = some h)).length =
      (List.range lats.length).length := by rw [e, List.length_range]
  exact List.filter_eq_self.2 (List.length_filter_eq_length_iff.1 this)

/-- The table the loop works on. -/
noncomputable def cut (t : Table) (hem : ℤ) : Table :=
  if (igood (t.col "CENTRE_MLAT") hem).length ≠ (t.col "CENTRE_MLAT").length then
    pickTable (igood (t.col "CENTRE_MLAT") hem) t else t

theorem cut_eq {saveAll : Bool} {t : Table} (ht : Even saveAll t) (hem : ℤ) :
    (cut t hem).year = pick (igood (t.col "CENTRE_MLAT") hem) t.year ∧
    (cut t hem).month = pick (igood (t.col "CENTRE_MLAT") hem) t.month ∧
    (cut t hem).day = pick (igood (t.col "CENTRE_MLAT") hem) t.day ∧
    (cut t hem).uth = pick (igood (t.col "CENTRE_MLAT") hem) t.uth ∧
    (cut t hem).dtime = pick (igood (t.col "CENTRE_MLAT") hem) t.dtime ∧
    ∀ k ∈ numKeys saveAll, (cut t hem).col k = pick (igood (t.col "CENTRE_MLAT") hem) (t.col k) := by
  unfold cut
  split
  · exact ⟨rfl, rfl, rfl, rfl, rfl, fun _ _ => rfl⟩
  · rename_i h
    rw [not_not] at h
    rw [igood_all h, ht.col _ (keys3 saveAll).1]
    refine ⟨?_, ?_, ?_, ?_, ?_, fun k hk => ?_⟩
    · rw [← ht.year, pick_range]
    · rw [← ht.month, pick_range]
    · rw [← ht.day, pick_range]
    · rw [← ht.uth, pick_range]
    · rw [pick_range]
    · rw [← ht.col k hk, pick_range]

/-- What row `o` for datum `i` and record `k` has to be. -/
structure RowOf (b : Bound) (scale : Scale) (saveAll : Bool) (t : Table) (i : ℕ) (k : ℤ) (o : Row) : Prop where
  time : t.dtime[i]? = some o.time
  saved : saveAll = false → o.saved = none
  kept : saveAll = true → ∃ s, o.saved = some s ∧ t.year[i]? = some s.year ∧ t.month[i]? = some s.month ∧
    t.day[i]? = some s.day ∧ t.uth[i]? = some s.uth ∧ ∀ k ∈ numKeys true, (t.col k)[i]? = some (s.col k)
  values : ∃ lat mlt v c r, (t.col "CENTRE_MLAT")[i]? = some lat ∧ (t.col "MLT")[i]? = some mlt ∧
    (t.col "VORTICITY")[i]? = some v ∧ b.place k lat mlt = .ok (o.lat, o.mlt, c) ∧ pyIdx b.r k = .ok r ∧
    (scale = none → o.vort = v) ∧
    ∀ f, scale = some f → o.vort = v.bind fun x => c.map fun c => f x (r + c) (90 - |b.blat|)

theorem pyIdx_nat {α : Type} {l : List α} {i : ℕ} {x : α} : pyIdx l (i : ℤ) = .ok x ↔ l[i]? = some x := by
  unfold pyIdx pyGet
  rw [if_pos (by omega), Int.toNat_natCast]
  cases l[i]? <;> simp

theorem row_spec {b : Bound} {scale : Scale} {saveAll : Bool} {t : Table} {j : ℕ} {k : ℤ} {o : Row} {t' : Table} {i : ℕ}
    (h : row b scale saveAll t' j k = .ok o) (hd : t'.dtime[j]? = t.dtime[i]?) (hy : t'.year[j]? = t.year[i]?)
    (hm : t'.month[j]? = t.month[i]?) (hdd : t'.day[j]? = t.day[i]?) (hu : t'.uth[j]? = t.uth[i]?)
    (hc : ∀ k ∈ numKeys saveAll, (t'.col k)[j]? = (t.col k)[i]?) (hlen : saveAll = true → ∀ k ∈ numKeys true,
      ∃ x, (t'.col k)[j]? = some x) : RowOf b scale saveAll t i k o := by
  unfold row at h
  simp only [bind, Except.bind, pure, Except.pure] at h
  split at h
  · simp at h
  rename_i lat e1
  split at h
  · simp at h
  rename_i mlt e2
  split at h
  · simp at h
  rename_i p e3
  split at h
  · simp at h
  rename_i r e4
  split at h
  · simp at h
  rename_i v e5
  split at h
  · simp at h
  rename_i tm e6
  rw [pyIdx_nat] at e1 e2 e5 e6
  obtain ⟨k1, k2, k3⟩ := keys3 saveAll
  rw [hc _ k1] at e1
  rw [hc _ k2] at e2
  rw [hc _ k3] at e5
  rw [hd] at e6
  have hv : ∀ nv : F, o.vort = nv → o.lat = p.1 → o.mlt = p.2.1 →
      (scale = none → nv = v) →
      (∀ f, scale = some f → nv = v.bind fun x => p.2.2.map fun c => f x (r + c) (90 - |b.blat|)) →
      ∃ lat mlt v c r, (t.col "CENTRE_MLAT")[i]? = some lat ∧ (t.col "MLT")[i]? = some mlt ∧
        (t.col "VORTICITY")[i]? = some v ∧ b.place k lat mlt = .ok (o.lat, o.mlt, c) ∧ pyIdx b.r k = .ok r ∧
        (scale = none → o.vort = v) ∧
        ∀ f, scale = some f → o.vort = v.bind fun x => c.map fun c => f x (r + c) (90 - |b.blat|) := by
    intro nv a1 a2 a3 a4 a5
    exact ⟨lat, mlt, v, p.2.2, r, e1, e2, e5, by rw [a2, a3]; exact e3, e4, a1 ▸ a4, a1 ▸ a5⟩
  cases saveAll with
  | false =>
    simp only [Bool.false_eq_true, if_false, Except.ok.injEq] at h
    subst h
    exact ⟨e6, fun _ => rfl, by simp, hv _ rfl rfl rfl (by rintro rfl; rfl) (by rintro f rfl; rfl)⟩
  | true =>
    simp only [if_true] at h
    split at h
    · simp at h
    rename_i y ey
    split at h
    · simp at h
    rename_i m em
    split at h
    · simp at h
    rename_i d ed
    split at h
    · simp at h
    rename_i u eu
    simp only [Except.ok.injEq] at h
    subst h
    rw [pyIdx_nat] at ey em ed eu
    refine ⟨e6, by simp, fun _ => ⟨_, rfl, by rw [← hy]; exact ey, by rw [← hm]; exact em, by rw [← hdd]; exact ed,
      by rw [← hu]; exact eu, fun k hk => ?_⟩, hv _ rfl rfl rfl (by rintro rfl; rfl) (by rintro f rfl; rfl)⟩
    obtain ⟨x, hx⟩ := hlen rfl k hk
    rw [← hc k hk, hx]
    simp [hx]

theorem mapE_rows {α β : Type} {f : α → Except PyErr β} {l : List α} {r : List β} (h : mapE f l = .ok r) :
    List.Forall₂ (fun a o => f a = .ok o) l r := by
  induction l generalizing r with
  | nil => simp only [mapE, Except.ok.injEq] at h; subst h; exact .nil
  | cons a l ih =>
    rw [mapE] at h
    split at h
    · simp at h
    rename_i x hx
    split at h
    · simp at h
    rename_i xs hxs
    simp only [Except.ok.injEq] at h
    subst h
    exact .cons hx (ih hxs)

variable {good : ℤ → Prop}

theorem cut_get {saveAll : Bool} {t : Table} (ht : Even saveAll t) (hem : ℤ) {α : Type} (l : List α)
    (hl : l.length = t.dtime.length) (j : ℕ) :
    (pick (igood (t.col "CENTRE_MLAT") hem) l)[j]? = (igood (t.col "CENTRE_MLAT") hem)[j]?.bind fun i : ℕ => l[i]? := by
  refine pick_get (fun i hi => ?_) j
  have := igood_lt hi
  rw [ht.col _ (keys3 saveAll).1] at this
  omega

theorem write_cases {b : Bound} {hem tol : ℤ} {scale : Scale} {saveAll : Bool} {t : Table} {rows : List Row}
    (h : write b hem tol scale saveAll t = .ok (.file rows)) :
    ∃ l, drive b.cyc (cut t hem).dtime tol 0 b.cursor = .ok l ∧
      mapE (fun p => row b scale saveAll (cut t hem) p.1 p.2) l = .ok rows := by
  unfold write at h
  split at h
  · simp at h
  simp only at h
  split at h
  · simp at h
  change (match drive b.cyc (cut t hem).dtime tol 0 b.cursor with
      | .error e => .error e
      | .ok l =>
        match mapE (fun p => row b scale saveAll (cut t hem) p.1 p.2) l with
        | .error e => .error e
        | .ok rows => .ok (.file rows)) = Except.ok (Out.file rows) at h
  split at h
  · simp at h
  rename_i l hl
  split at h
  · simp at h
  rename_i r hr
  simp only [Except.ok.injEq, Out.file.injEq] at h
  subst h
  exact ⟨l, hl, hr⟩

/-- The time order survives the selection. -/
theorem cut_order {saveAll : Bool} {t : Table} (ht : Even saveAll t) (hem : ℤ) (hD : t.dtime.Pairwise (· ≤ ·)) :
    (cut t hem).dtime.Pairwise (· ≤ ·) := by
  rw [(cut_eq ht hem).2.2.2.2.1, List.pairwise_iff_getElem]
  intro a b ha hb hab
  have ea := cut_get ht hem t.dtime rfl a
  have eb := cut_get ht hem t.dtime rfl b
  rw [List.getElem?_eq_getElem ha] at ea
  rw [List.getElem?_eq_getElem hb] at eb
  have ea' := Option.bind_eq_some_iff.1 ea.symm
  have eb' := Option.bind_eq_some_iff.1 eb.symm
  obtain ⟨i, hi, hi'⟩ := ea'
  obtain ⟨j, hj, hj'⟩ := eb'
  obtain ⟨i1, i2⟩ := List.getElem?_eq_some_iff.1 hi
  obtain ⟨j1, j2⟩ := List.getElem?_eq_some_iff.1 hj
  obtain ⟨i3, i4⟩ := List.getElem?_eq_some_iff.1 hi'
  obtain ⟨j3, j4⟩ := List.getElem?_eq_some_iff.1 hj'
  have hij := List.pairwise_iff_getElem.1 (igood_sorted (t.col "CENTRE_MLAT") hem) a b i1 j1 hab
  rw [i2, j2] at hij
  rw [← i4, ← j4]
  exact List.pairwise_iff_getElem.1 hD i j i3 j3 hij

/-- C107: the rows of the output file belong to pairs of a datum and a boundary record, with the data in order and the
records never going back.  Each datum is of the hemisphere, each record is usable and within the tolerance of the datum,
and the row holds the time and the values for this pair.  For data and records in time order every datum of the hemisphere
with a usable record within the tolerance has a row, and its record is one of the nearest. -/
theorem C107_rows (b : Bound) (hb : IsBoundary b.cyc good) (h0 : -1 ≤ b.cursor) (hem tol : ℤ) (htol : 0 ≤ tol)
    (scale : Scale) (saveAll : Bool) (t : Table) (ht : Even saveAll t) (rows : List Row)
    (h : write b hem tol scale saveAll t = .ok (.file rows)) :
    ∃ l : List (ℕ × ℤ), l.Pairwise (fun p q => p.1 < q.1 ∧ p.2 ≤ q.2) ∧
      List.Forall₂ (fun p o => RowOf b scale saveAll t p.1 p.2 o) l rows ∧
      (∀ p ∈ l, (∃ x : ℝ, (t.col "CENTRE_MLAT")[p.1]? = some (some x) ∧ (SignType.sign x : ℤ) = hem) ∧
        Close b.cyc t.dtime tol p.1 p.2 ∧ Cand good b.cursor p.2) ∧
      (t.dtime.Pairwise (· ≤ ·) → NondecOn b.cyc.times (Cand good b.cursor) → ∀ (i : ℕ) (x : ℝ) (k : ℤ),
        (t.col "CENTRE_MLAT")[i]? = some (some x) → (SignType.sign x : ℤ) = hem → Cand good b.cursor k →
        Close b.cyc t.dtime tol i k → ∃ p ∈ l, p.1 = i) ∧
      (t.dtime.Pairwise (· ≤ ·) → StrictOn b.cyc.times (Cand good b.cursor) → ∀ p ∈ l, ∀ k, Cand good b.cursor k →
        NoFarther b.cyc t.dtime p.1 p.2 k) := by
  obtain ⟨l, hl, hr⟩ := write_cases h
  set idx := igood (t.col "CENTRE_MLAT") hem with hidx
  obtain ⟨c1, c2, c3, c4, c5, c6⟩ := cut_eq ht hem
  rw [← hidx] at c1 c2 c3 c4 c5 c6
  have hg : ∀ j : ℕ, (cut t hem).dtime[j]? = idx[j]?.bind fun i : ℕ => t.dtime[i]? := fun j => by
    rw [c5]; exact cut_get ht hem t.dtime rfl j
  obtain ⟨q1, q2⟩ := Cycle.C18_drive_pairs hb _ tol htol b.cursor h0 l hl
  have hlt : ∀ q ∈ l, ∃ i, idx[q.1]? = some i ∧ idx.getD q.1 0 = i ∧ i ∈ idx := by
    intro q hq
    obtain ⟨⟨d, _, hd, -, -⟩, -⟩ := q2 q hq
    rw [hg, Option.bind_eq_some_iff] at hd
    obtain ⟨i, hi, -⟩ := hd
    exact ⟨i, hi, by rw [List.getD_eq_getElem?_getD, hi]; rfl, List.mem_of_getElem? hi⟩
  have hclose : ∀ (j i : ℕ) (k : ℤ), idx[j]? = some i → (Close b.cyc (cut t hem).dtime tol j k ↔
      Close b.cyc t.dtime tol i k) := by
    intro j i k hj
    unfold Close
    rw [hg, hj]
    rfl
  refine ⟨l.map fun q => (idx.getD q.1 0, q.2), ?_, ?_, ?_, ?_, ?_⟩
  · rw [List.pairwise_map]
    refine q1.imp_of_mem fun {p q} hp hq hpq => ⟨?_, hpq.2⟩
    obtain ⟨i, i1, i2, -⟩ := hlt p hp
    obtain ⟨j, j1, j2, -⟩ := hlt q hq
    simp only [i2, j2]
    obtain ⟨i3, i4⟩ := List.getElem?_eq_some_iff.1 i1
    obtain ⟨j3, j4⟩ := List.getElem?_eq_some_iff.1 j1
    rw [← i4, ← j4]
    exact List.pairwise_iff_getElem.1 (igood_sorted _ hem) _ _ i3 j3 hpq.1
  · rw [List.forall₂_map_left_iff]
    have hf := mapE_rows hr
    have hmem : List.Forall₂ (fun p o => p ∈ l ∧ row b scale saveAll (cut t hem) p.1 p.2 = .ok o) l rows := by
      rw [List.forall₂_iff_get] at hf ⊢
      exact ⟨hf.1, fun i h1 h2 => ⟨List.get_mem _ _, hf.2 i h1 h2⟩⟩
    refine hmem.imp fun p o hpo => ?_
    obtain ⟨hp, ho⟩ := hpo
    obtain ⟨i, i1, i2, i3⟩ := hlt p hp
    rw [i2]
    have get : ∀ {α : Type} (x : List α), x.length = t.dtime.length → (pick idx x)[p.1]? = x[i]? := by
      intro α x hx
      rw [hidx, cut_get ht hem x hx, ← hidx, i1]
      rfl
    refine row_spec ho (by rw [c5, get _ rfl]) (by rw [c1, get _ ht.year]) (by rw [c2, get _ ht.month])
      (by rw [c3, get _ ht.day]) (by rw [c4, get _ ht.uth]) (fun k hk => by rw [c6 k hk, get _ (ht.col k hk)]) ?_
    rintro rfl k hk
    rw [c6 k hk, get _ (ht.col k hk)]
    have := igood_lt i3
    rw [ht.col _ (keys3 true).1, ← ht.col k hk] at this
    exact ⟨_, List.getElem?_eq_getElem this⟩
  · intro p hp
    obtain ⟨q, hq, rfl⟩ := List.mem_map.1 hp
    obtain ⟨i, i1, i2, i3⟩ := hlt q hq
    simp only [i2]
    exact ⟨igood_mem.1 i3, (hclose _ _ _ i1).1 (q2 q hq).1, (q2 q hq).2⟩
  · intro hD hN i x k hx hs hk hc
    have hi : i ∈ idx := igood_mem.2 ⟨x, hx, hs⟩
    obtain ⟨j, hj⟩ := List.mem_iff_getElem?.1 hi
    obtain ⟨q, hq, rfl⟩ := (Cycle.C18_drive_complete hb _ tol htol b.cursor h0 (cut_order ht hem hD) hN l hl j).2
      ⟨k, hk, (hclose _ _ _ hj).2 hc⟩
    exact ⟨_, List.mem_map.2 ⟨q, hq, rfl⟩, by simp only [List.getD_eq_getElem?_getD, hj, Option.getD_some]⟩
  · intro hD hS p hp k hk d s s' hd hs hs'
    obtain ⟨q, hq, rfl⟩ := List.mem_map.1 hp
    obtain ⟨i, i1, i2, i3⟩ := hlt q hq
    simp only [i2] at hd
    exact Cycle.C18_drive_nearest hb _ tol htol b.cursor h0 (cut_order ht hem hD) hS l hl q hq k hk d s s'
      (by rw [hg, i1]; exact hd) hs hs'

/-- The times of the data of a hemisphere. -/
noncomputable def hemTimes (t : Table) (hem : ℤ) : List ℤ :=
  ((t.dtime.zip (t.col "CENTRE_MLAT")).filter fun p => decide (∃ x : ℝ, p.2 = some x ∧ (SignType.sign x : ℤ) = hem)).map
    Prod.fst

theorem pick_filter {α : Type} (xs : List α) (lats : List F) (h : ℤ) (hl : xs.length = lats.length) :
    pick (igood lats h) xs =
      ((xs.zip lats).filter fun p => decide (∃ x : ℝ, p.2 = some x ∧ (SignType.sign x : ℤ) = h)).map Prod.fst := by
  have e : xs.zip lats = (List.range lats.length).filterMap fun i : ℕ => (xs[i]?).bind fun a => (lats[i]?).map fun b => (a, b) := by
    apply List.ext_getElem?
    intro j
    have hf : ((List.range lats.length).filterMap fun i : ℕ => (xs[i]?).bind fun a => (lats[i]?).map fun b => (a, b)) =
        (List.range lats.length).filterMap fun i : ℕ => (xs.zip lats)[i]? := by
      apply List.filterMap_congr
      intro i hi
      rw [List.mem_range] at hi
      rw [List.getElem?_eq_getElem hi, List.getElem?_eq_getElem (by omega : i < xs.length),
        List.getElem?_eq_getElem (by rw [List.length_zip]; omega : i < (xs.zip lats).length)]
      simp
    rw [hf]
    have := pick_range (xs.zip lats)
    rw [List.length_zip, hl, min_self] at this
    unfold pick at this
    rw [this]
  rw [e, List.filter_filterMap, List.map_filterMap]
  unfold pick igood
  rw [List.filterMap_filter]
  apply List.filterMap_congr
  intro i hi
  rw [List.mem_range] at hi
  rw [List.getElem?_eq_getElem hi, List.getElem?_eq_getElem (by omega : i < xs.length)]
  cases hx : lats[i] with
  | none => simp [sgn]
  | some x =>
    by_cases hs : (SignType.sign x : ℤ) = h
    · simp [sgn, hs]
    · simp [sgn, hs]

theorem cut_times {saveAll : Bool} {t : Table} (ht : Even saveAll t) (hem : ℤ) : (cut t hem).dtime = hemTimes t hem := by
  rw [(cut_eq ht hem).2.2.2.2.1, pick_filter _ _ _ (ht.col _ (keys3 saveAll).1).symm]
  rfl

/-- C107: no file is written exactly when there is no boundary record, or there are data but none of the hemisphere. -/
theorem C107_no_file (b : Bound) (hem tol : ℤ) (scale : Scale) (saveAll : Bool) (t : Table) (ht : Even saveAll t) :
    write b hem tol scale saveAll t = .ok .nothing ↔
      b.cyc.times = [] ∨ (t.dtime ≠ [] ∧ hemTimes t hem = []) := by
  have hn : (igood (t.col "CENTRE_MLAT") hem).length ≠ (t.col "CENTRE_MLAT").length ∧
      (igood (t.col "CENTRE_MLAT") hem).length = 0 ↔ t.dtime ≠ [] ∧ hemTimes t hem = [] := by
    rw [← cut_times ht hem, (cut_eq ht hem).2.2.2.2.1, ht.col _ (keys3 saveAll).1, List.length_eq_zero_iff]
    constructor
    · rintro ⟨h1, h2⟩
      rw [h2] at h1 ⊢
      refine ⟨fun h => ?_, rfl⟩
      rw [h] at h1
      exact h1 rfl
    · rintro ⟨h1, h2⟩
      have h3 : igood (t.col "CENTRE_MLAT") hem = [] := by
        rw [List.eq_nil_iff_forall_not_mem]
        intro i hi
        obtain ⟨j, hj⟩ := List.mem_iff_getElem?.1 hi
        have := cut_get ht hem t.dtime rfl j
        rw [h2, hj, Option.bind_some] at this
        have hlt := igood_lt hi
        rw [ht.col _ (keys3 saveAll).1] at hlt
        rw [List.getElem?_eq_getElem hlt] at this
        simp at this
      refine ⟨?_, h3⟩
      rw [h3]
      exact fun h => h1 (List.length_eq_zero_iff.1 h.symm)
  have h0 : b.cyc.records = 0 ↔ b.cyc.times = [] := by
    unfold Cycler.records
    rw [Int.natCast_eq_zero, List.length_eq_zero_iff]
  unfold write
  by_cases hc : b.cyc.times = []
  · rw [if_pos (h0.2 hc)]
    simp [hc]
  · rw [if_neg (mt h0.1 hc)]
    simp only [hc, false_or]
    rw [← hn]
    split
    · rename_i hh
      exact iff_of_true rfl hh
    · rename_i hh
      simp only [hh, iff_false]
      intro h
      split at h
      · simp at h
      · split at h <;> simp at h

theorem mapE_total {α β : Type} {f : α → Except PyErr β} {l : List α} (h : ∀ a ∈ l, ∃ o, f a = .ok o) :
    ∃ r, mapE f l = .ok r := by
  induction l with
  | nil => exact ⟨[], rfl⟩
  | cons a l ih =>
    obtain ⟨o, ho⟩ := h a List.mem_cons_self
    obtain ⟨r, hr⟩ := ih fun x hx => h x (List.mem_cons_of_mem _ hx)
    exact ⟨o :: r, by rw [mapE, ho]; simp only [hr]⟩

/-- C107: for data and records in time order and a boundary object that can place every datum, the call fails exactly when
none of the data of the hemisphere overlaps with the records in the sense of C60, and then with TypeError. -/
theorem C107_fails_iff (b : Bound) (hb : IsBoundary b.cyc good) (h0 : -1 ≤ b.cursor) (hem tol : ℤ) (htol : 0 ≤ tol)
    (scale : Scale) (saveAll : Bool) (t : Table) (ht : Even saveAll t) (hD : t.dtime.Pairwise (· ≤ ·))
    (hN : NondecOn b.cyc.times (Cand good b.cursor)) (hr : b.cyc.times.length ≤ b.r.length)
    (hp : ∀ (k : ℤ) (lat mlt : F), 0 ≤ k → k < b.cyc.times.length → ∃ o, b.place k lat mlt = .ok o) (e : PyErr) :
    write b hem tol scale saveAll t = .error e ↔
      b.cyc.times ≠ [] ∧ e = .typeError ∧ NoOverlap b.cyc good b.cursor (hemTimes t hem) tol := by
  have hcut := cut_times ht hem
  by_cases hnf : write b hem tol scale saveAll t = .ok .nothing
  · rw [hnf]
    simp only [reduceCtorEq, false_iff, not_and]
    intro hc _ hno
    rcases (C107_no_file b hem tol scale saveAll t ht).1 hnf with h | ⟨-, h⟩
    · exact hc h
    · obtain ⟨⟨d, hd⟩, -⟩ := hno
      rw [h] at hd
      simp at hd
  · have hnf' := hnf
    rw [C107_no_file b hem tol scale saveAll t ht, not_or] at hnf'
    have hdr := Cycle.C60_drive_error_iff_partial hb (hemTimes t hem) tol htol b.cursor h0
      (hcut ▸ cut_order ht hem hD) hN e
    rw [← hcut] at hdr ⊢
    have hw : write b hem tol scale saveAll t = (match drive b.cyc (cut t hem).dtime tol 0 b.cursor with
      | .error e => .error e
      | .ok l =>
        match mapE (fun p => row b scale saveAll (cut t hem) p.1 p.2) l with
        | .error e => .error e
        | .ok rows => .ok (.file rows)) := by
      unfold write at hnf ⊢
      split at hnf
      · exact absurd rfl hnf
      rename_i h1
      rw [if_neg h1]
      simp only at hnf ⊢
      split at hnf
      · exact absurd rfl hnf
      rename_i h2
      rw [if_neg h2]
      rfl
    rw [hw]
    cases hd : drive b.cyc (cut t hem).dtime tol 0 b.cursor with
    | error e' =>
      rw [hd] at hdr
      simp only [Except.error.injEq] at hdr ⊢
      rw [hdr]
      exact ⟨fun h => ⟨hnf'.1, h⟩, fun h => h.2⟩
    | ok l =>
      rw [hd] at hdr
      simp only [reduceCtorEq, false_iff] at hdr
      obtain ⟨q1, q2⟩ := Cycle.C18_drive_pairs hb _ tol htol b.cursor h0 l hd
      obtain ⟨rs, hrs⟩ := mapE_total (f := fun p : ℕ × ℤ => row b scale saveAll (cut t hem) p.1 p.2) (l := l) (by
        intro p hpl
        obtain ⟨⟨d, tt, hdd, hat, -⟩, -⟩ := q2 p hpl
        obtain ⟨c1, c2, c3, c4, c5, c6⟩ := cut_eq ht hem
        have hjlt : ∀ {α : Type} (x : List α), x.length = t.dtime.length →
            ∃ v, (pick (igood (t.col "CENTRE_MLAT") hem) x)[p.1]? = some v := by
          intro α x hx
          rw [cut_get ht hem x hx]
          rw [c5, cut_get ht hem _ rfl, Option.bind_eq_some_iff] at hdd
          obtain ⟨i, hi, hi'⟩ := hdd
          rw [hi, Option.bind_some]
          have := (List.getElem?_eq_some_iff.1 hi').1
          exact ⟨_, List.getElem?_eq_getElem (by omega)⟩
        obtain ⟨lat, e1⟩ := hjlt _ (ht.col _ (keys3 saveAll).1)
        obtain ⟨mlt, e2⟩ := hjlt _ (ht.col _ (keys3 saveAll).2.1)
        obtain ⟨v, e3⟩ := hjlt _ (ht.col _ (keys3 saveAll).2.2)
        obtain ⟨y, e5⟩ := hjlt _ ht.year
        obtain ⟨m, e6⟩ := hjlt _ ht.month
        obtain ⟨dd, e7⟩ := hjlt _ ht.day
        obtain ⟨u, e8⟩ := hjlt _ ht.uth
        rw [← c6 _ (keys3 saveAll).1, ← pyIdx_nat] at e1
        rw [← c6 _ (keys3 saveAll).2.1, ← pyIdx_nat] at e2
        rw [← c6 _ (keys3 saveAll).2.2, ← pyIdx_nat] at e3
        rw [← c1, ← pyIdx_nat] at e5
        rw [← c2, ← pyIdx_nat] at e6
        rw [← c3, ← pyIdx_nat] at e7
        rw [← c4, ← pyIdx_nat] at e8
        rw [← pyIdx_nat] at hdd
        obtain ⟨k0, k1⟩ := hat
        have k2 := (List.getElem?_eq_some_iff.1 k1).1
        obtain ⟨o, e4⟩ := hp p.2 lat mlt k0 (by omega)
        have e9 : ∃ r, pyIdx b.r p.2 = .ok r := by
          obtain ⟨n, hn⟩ := Int.eq_ofNat_of_zero_le k0
          rw [hn] at k2 ⊢
          rw [Int.toNat_natCast] at k2
          exact ⟨_, pyIdx_nat.2 (List.getElem?_eq_getElem (by omega))⟩
        obtain ⟨r, e9⟩ := e9
        unfold row
        simp only [bind, Except.bind, pure, Except.pure, e1, e2, e3, e4, e5, e6, e7, e8, e9, hdd]
        cases saveAll with
        | true => exact ⟨_, rfl⟩
        | false => exact ⟨_, rfl⟩)
      simp only [hrs, reduceCtorEq, false_iff]
      exact fun h => hdr h.2

/-! ### the values -/

theorem single_place (recs : List Rec) (hem : ℤ) (blat : ℝ) (cyc : Cycler) (rec : ℤ) (hv : ∀ B ∈ recs, B.Valid) (k : ℤ)
    (lat mlt : F) : ∃ o, (single recs hem blat cyc rec).place k lat mlt = .ok o ∧
      (∀ B, 0 ≤ k → recs[k.toNat]? = some B → NormalOut B (lat, mlt) o) := by
  unfold single
  simp only [bind, Except.bind]
  cases hs : selRec recs k with
  | none =>
    refine ⟨_, rfl, fun B h0 hB => ?_⟩
    unfold selRec at hs
    rw [if_pos h0, hB] at hs
    cases hs
  | some B =>
    have hB : B ∈ recs := by
      unfold selRec at hs
      split at hs
      · exact List.mem_of_getElem? hs
      · cases hs
    obtain ⟨out, lats, h1, h2⟩ := Coord.C27_normal_entries B (hv B hB) [(lat, mlt)]
    rw [h1]
    cases h2 with
    | cons h3 h4 =>
      cases h4
      refine ⟨_, rfl, fun B' h0 hB' => ?_⟩
      unfold selRec at hs
      rw [if_pos h0, hB', Option.some.injEq] at hs
      subst hs
      exact h3

/-- The values of the row for a datum with latitude, local time and vorticity, and a boundary record. -/
structure Values (B : Rec) (blat : ℝ) (scale : Scale) (x : ℝ) (mlt v : F) (o : Row) : Prop where
  known : ∀ m, mlt = some m → ∃ L M, normalPt B x m = .ok (L, M, B.rf m) ∧ o.lat = some L ∧ o.mlt = some M ∧
    0 ≤ M ∧ M < 24 ∧ ∀ f, scale = some f → o.vort = v.map fun w => f w (B.r + B.rf m) (90 - |blat|)
  unknown : mlt = none → o.lat = none ∧ o.mlt = none
  unscaled : scale = none → o.vort = v

/-- C108: with an `OCBoundary` each row is for a datum of the hemisphere and a usable record within the tolerance: the
new coordinates are those of `normal_coord` at this record, the new value is the scaled one with the radius of this record
at the local time of the datum. -/
theorem C108_values (recs : List Rec) (hem : ℤ) (blat : ℝ) (cyc : Cycler) (rec : ℤ) (hb : IsBoundary cyc good)
    (h0 : -1 ≤ rec) (hlen : recs.length = cyc.times.length) (hv : ∀ B ∈ recs, B.Valid ∧ B.hem = hem ∧ B.blat = blat)
    (tol : ℤ) (htol : 0 ≤ tol) (scale : Scale) (saveAll : Bool) (t : Table) (ht : Even saveAll t) (rows : List Row)
    (h : write (single recs hem blat cyc rec) hem tol scale saveAll t = .ok (.file rows)) (o : Row) (ho : o ∈ rows) :
    ∃ (i k : ℕ) (B : Rec) (x : ℝ) (mlt v : F), recs[k]? = some B ∧ t.dtime[i]? = some o.time ∧
      (t.col "CENTRE_MLAT")[i]? = some (some x) ∧ (t.col "MLT")[i]? = some mlt ∧ (t.col "VORTICITY")[i]? = some v ∧
      (SignType.sign x : ℤ) = hem ∧ Cand good rec k ∧ Close cyc t.dtime tol i k ∧ Values B blat scale x mlt v o := by
  obtain ⟨l, -, hf, hl, -, -⟩ := C107_rows (single recs hem blat cyc rec) hb h0 hem tol htol scale saveAll t ht rows h
  obtain ⟨n, hn, rfl⟩ := List.getElem_of_mem ho
  rw [List.forall₂_iff_get] at hf
  have hnl : n < l.length := by omega
  have hrow := hf.2 n hnl hn
  simp only [List.get_eq_getElem] at hrow
  obtain ⟨⟨x, x1, x2⟩, hc, hk⟩ := hl _ (List.getElem_mem hnl)
  generalize l[n] = q at hrow x1 hc hk
  obtain ⟨i, k⟩ := q
  simp only at hrow x1 hc hk
  obtain ⟨_, _, _, hat, _⟩ := id hc
  obtain ⟨k0, k1⟩ := hat
  obtain ⟨k, rfl⟩ := Int.eq_ofNat_of_zero_le k0
  have k2 := (List.getElem?_eq_some_iff.1 k1).1
  rw [Int.toNat_natCast] at k2
  change k < cyc.times.length at k2
  have hB : recs[k]? = some recs[k] := List.getElem?_eq_getElem (by omega)
  obtain ⟨v1, v2, v3⟩ := hv _ (List.getElem_mem (by omega : k < recs.length))
  obtain ⟨lat, mlt, v, c, r, e1, e2, e3, e4, e5, e6, e7⟩ := hrow.values
  rw [x1, Option.some.injEq] at e1
  subst e1
  obtain ⟨o', o1, o2⟩ := single_place recs hem blat cyc rec (fun B hB => (hv B hB).1) k (some x) mlt
  rw [e4, Except.ok.injEq] at o1
  subst o1
  have hN := o2 recs[k] k0 (by rw [Int.toNat_natCast]; exact hB)
  have er : r = recs[k].r := by
    change pyIdx (recs.map Rec.r) (k : ℤ) = .ok r at e5
    rw [pyIdx_nat, List.getElem?_map, hB] at e5
    simpa using e5.symm
  have hin : InHem recs[k].hem x := by
    unfold InHem
    rw [v2, ← x2]
    simp
  refine ⟨i, k, recs[k], x, mlt, v, hB, hrow.time, x1, e2, e3, x2, hk, hc, ⟨?_, ?_, e6⟩⟩
  · rintro m rfl
    rcases hN with ⟨lat, m', e, -, L, M, n1, n2, n3, n4, -⟩ | ⟨n1, -⟩
    · simp only [Prod.mk.injEq, Option.some.injEq] at e
      obtain ⟨rfl, rfl⟩ := e
      simp only [Prod.mk.injEq] at n2
      refine ⟨L, M, n1, n2.1, n2.2.1, n3, n4, fun f hf => ?_⟩
      rw [e7 f hf, n2.2.2, er]
      cases v <;> rfl
    · exact absurd hin (n1 x m rfl)
  · rintro rfl
    rcases hN with ⟨lat, m', e, -⟩ | ⟨-, n2, n3⟩
    · simp at e
    · exact ⟨n2, n3⟩

theorem noStore_wf (D : DualObj) : noStore.WF D :=
  ⟨⟨by simp [DStore.ocb, noStore], by simp [DStore.ocb, noStore]⟩, ⟨by simp [DStore.eab, noStore], by simp [DStore.eab, noStore]⟩,
    ⟨by simp [DStore.ocb, noStore], by simp [DStore.ocb, noStore, Coord.Store.slot, Coord.Store.slotMlt]⟩,
    ⟨by simp [DStore.eab, noStore], by simp [DStore.eab, noStore, Coord.Store.slot, Coord.Store.slotMlt]⟩⟩

theorem dual_place {D : DualObj} {hem : ℤ} {cyc : Cycler} {rec : ℤ} {k : ℤ} {O E : Rec}
    (hD : Coord.PairOk (atPair D k) O E) {lat mlt ρo ρe : ℝ} (hg : Coord.GoodPt O E lat mlt ρo ρe) :
    ∃ x L M, normalPt O lat mlt = .ok (L, M, O.rf mlt) ∧
      (dual D hem cyc rec).place k (some lat) (some mlt) = .ok (some (D.hem * x), some M, some (O.rf mlt)) ∧
      Coord.Piecewise |D.ocbLat| |D.eabLat| ρo ρe (Coord.colat D.hem lat) (D.hem * L) x := by
  obtain ⟨out, s', h1, h2⟩ := Coord.C35_piecewise hD noStore (noStore_wf _) 0 [(some lat, some mlt)] false
  cases h2 with
  | cons h3 h4 =>
    cases h4
    obtain ⟨x, L, M, a1, a2, a3⟩ := h3.1 lat mlt ρo ρe rfl hg
    refine ⟨x, L, M, a1, ?_, a3⟩
    unfold dual
    simp only [bind, Except.bind, h1, a2]
    rfl

/-- C108: the same for a `DualBoundary` in which each pair has the number of its OCB record, for data where both
boundaries are well defined.  Missing: pairs with another number, see `C108_dual_radius_refuted`. -/
theorem C108_dual_partial (D : DualObj) (hem : ℤ) (cyc : Cycler) (rec : ℤ) (hb : IsBoundary cyc good) (h0 : -1 ≤ rec)
    (hn : ∀ k : ℕ, k < cyc.times.length → D.ocbInd[k]? = some (k : ℤ) ∧ ∃ O E, Coord.PairOk (atPair D k) O E)
    (tol : ℤ) (htol : 0 ≤ tol) (scale : Scale) (saveAll : Bool) (t : Table) (ht : Even saveAll t) (rows : List Row)
    (h : write (dual D hem cyc rec) hem tol scale saveAll t = .ok (.file rows)) (o : Row) (ho : o ∈ rows) :
    ∃ (i k : ℕ) (O E : Rec) (x : ℝ) (mlt v : F), Coord.PairOk (atPair D k) O E ∧ t.dtime[i]? = some o.time ∧
      (t.col "CENTRE_MLAT")[i]? = some (some x) ∧ (t.col "MLT")[i]? = some mlt ∧ (t.col "VORTICITY")[i]? = some v ∧
      (SignType.sign x : ℤ) = hem ∧ Cand good rec k ∧ Close cyc t.dtime tol i k ∧
      ∀ m ρo ρe, mlt = some m → Coord.GoodPt O E x m ρo ρe → ∃ y L M, normalPt O x m = .ok (L, M, O.rf m) ∧
        o.lat = some (D.hem * y) ∧ o.mlt = some M ∧
        Coord.Piecewise |D.ocbLat| |D.eabLat| ρo ρe (Coord.colat D.hem x) (D.hem * L) y ∧
        ∀ f, scale = some f → o.vort = v.map fun w => f w (O.r + O.rf m) (90 - |D.ocbLat|) := by
  obtain ⟨l, -, hf, hl, -, -⟩ := C107_rows (dual D hem cyc rec) hb h0 hem tol htol scale saveAll t ht rows h
  obtain ⟨n, hn', rfl⟩ := List.getElem_of_mem ho
  rw [List.forall₂_iff_get] at hf
  have hnl : n < l.length := by omega
  have hrow := hf.2 n hnl hn'
  simp only [List.get_eq_getElem] at hrow
  obtain ⟨⟨x, x1, x2⟩, hc, hk⟩ := hl _ (List.getElem_mem hnl)
  generalize l[n] = q at hrow x1 hc hk
  obtain ⟨i, k⟩ := q
  simp only at hrow x1 hc hk
  obtain ⟨_, _, _, hat, _⟩ := id hc
  obtain ⟨k0, k1⟩ := hat
  obtain ⟨k, rfl⟩ := Int.eq_ofNat_of_zero_le k0
  have k2 := (List.getElem?_eq_some_iff.1 k1).1
  rw [Int.toNat_natCast] at k2
  obtain ⟨d1, O, E, d2⟩ := hn k k2
  obtain ⟨lat, mlt, v, c, r, e1, e2, e3, e4, e5, e6, e7⟩ := hrow.values
  rw [x1, Option.some.injEq] at e1
  subst e1
  have er : D.ocbRecs[k]? = some O := by
    have h1 := Coord.selRec_sel d2.sel
    have h2 : (atPair D k).ocbRecInd = k := by simp [atPair, d1]
    rw [h2] at h1
    unfold selRec at h1
    rw [if_pos k0, Int.toNat_natCast] at h1
    exact h1
  refine ⟨i, k, O, E, x, mlt, v, d2, hrow.time, x1, e2, e3, x2, hk, hc, ?_⟩
  rintro m ρo ρe rfl hg
  obtain ⟨y, L, M, y1, y2, y3⟩ := dual_place (hem := hem) (cyc := cyc) (rec := rec) d2 hg
  rw [e4] at y2
  simp only [Except.ok.injEq, Prod.mk.injEq] at y2
  refine ⟨y, L, M, y1, y2.1, y2.2.1, y3, fun f hf => ?_⟩
  change pyIdx (D.ocbRecs.map Rec.r) (k : ℤ) = .ok r at e5
  rw [pyIdx_nat, List.getElem?_map, er] at e5
  simp only [Option.map_some, Option.some.injEq] at e5
  rw [e7 f hf, y2.2.2, ← e5]
  cases v <;> rfl

/-! ### examples -/

/-- One datum: 80 degrees north at dawn, vorticity 1, at time 0. -/
noncomputable def oneDatum : Table where
  year := [2000]
  month := [1]
  day := [1]
  uth := [some 0]
  dtime := [0]
  col k := if k = "CENTRE_MLAT" then [some 80] else if k = "MLT" then [some 6] else [some 1]

theorem oneDatum_even (saveAll : Bool) : Even saveAll oneDatum := by
  refine ⟨rfl, rfl, rfl, rfl, fun k _ => ?_⟩
  change (if k = "CENTRE_MLAT" then [some 80] else if k = "MLT" then [some 6] else [some 1] : List F).length = 1
  split_ifs <;> rfl

theorem oneDatum_times : hemTimes oneDatum 1 = [0] := by
  unfold hemTimes oneDatum
  have : (SignType.sign (80 : ℝ) : ℤ) = 1 := by rw [sign_pos (by norm_num)]; rfl
  simp [this]

theorem zero_nondec (p : ℤ → Prop) : NondecOn [0] p := by
  intro a b s t _ _ _ ⟨_, h1⟩ ⟨_, h2⟩
  have e1 := List.mem_of_getElem? h1
  have e2 := List.mem_of_getElem? h2
  simp only [List.mem_singleton] at e1 e2
  omega

/-- With one record at time 0, the cursor on it, and a boundary that can place data, the datum gets its row. -/
theorem oneDatum_row (b : Bound) (hc : b.cyc.times = [0]) (hb : IsBoundary b.cyc good) (h0 : b.cursor = 0)
    (scale : Scale) (hr : b.r ≠ []) (hp : ∀ lat mlt, ∃ o, b.place 0 lat mlt = .ok o) :
    ∃ o, write b 1 60 scale false oneDatum = .ok (.file [o]) ∧ RowOf b scale false oneDatum 0 0 o := by
  have hD : oneDatum.dtime.Pairwise (· ≤ ·) := by simp [oneDatum]
  have hN : NondecOn b.cyc.times (Cand good b.cursor) := by rw [hc]; exact zero_nondec _
  have hno : ¬ NoOverlap b.cyc good b.cursor (hemTimes oneDatum 1) 60 := by
    rw [oneDatum_times, h0]
    rintro ⟨-, ⟨h, -⟩ | ⟨-, h⟩⟩
    · simp at h
    · have := h 0 0 0 (by rw [hc]; exact ⟨le_rfl, rfl⟩) ⟨le_rfl, .inl rfl⟩ rfl
      omega
  have hex : ∃ rows, write b 1 60 scale false oneDatum = .ok (.file rows) := by
    cases hw : write b 1 60 scale false oneDatum with
    | error e =>
      have := (C107_fails_iff b hb (by omega) 1 60 (by norm_num) scale false oneDatum (oneDatum_even _) hD hN (by
        rw [hc]; exact List.length_pos_iff.2 hr) (by
        intro k lat mlt k0 k1
        rw [hc] at k1
        obtain rfl : k = 0 := by simp at k1; omega
        exact hp lat mlt) e).1 hw
      exact absurd this.2.2 hno
    | ok out =>
      cases out with
      | file rows => exact ⟨rows, rfl⟩
      | nothing =>
        rcases (C107_no_file b 1 60 scale false oneDatum (oneDatum_even _)).1 hw with h | ⟨-, h⟩
        · rw [hc] at h; simp at h
        · rw [oneDatum_times] at h; simp at h
  obtain ⟨rows, hrows⟩ := hex
  obtain ⟨l, l1, l2, l3, l4, -⟩ := C107_rows b hb (by omega) 1 60 (by norm_num) scale false oneDatum (oneDatum_even _)
    rows hrows
  obtain ⟨p, hp1, hp2⟩ := l4 hD hN 0 80 0 rfl (by rw [sign_pos (by norm_num)]; rfl) ⟨by omega, .inl h0.symm⟩
    ⟨0, 0, rfl, by rw [hc]; exact ⟨le_rfl, rfl⟩, by norm_num⟩
  have hall : ∀ q ∈ l, q = (0, 0) := by
    intro q hq
    obtain ⟨⟨x, x1, -⟩, ⟨_, _, _, ⟨k0, k1⟩, _⟩, -⟩ := l3 q hq
    have h1 := (List.getElem?_eq_some_iff.1 x1).1
    rw [(oneDatum_even false).col _ (keys3 false).1] at h1
    have h2 := (List.getElem?_eq_some_iff.1 k1).1
    rw [hc] at h2
    simp only [oneDatum, List.length_singleton] at h1 h2
    exact Prod.ext (by simp; omega) (by simp; omega)
  have hl : l = [(0, 0)] := by
    match l, l1, hall, hp1 with
    | [q], _, hall, _ => rw [hall q List.mem_cons_self]
    | q :: q' :: _, l1, hall, _ =>
      have a := hall q List.mem_cons_self
      have b := hall q' (by simp)
      have := (List.pairwise_cons.1 l1).1 q' List.mem_cons_self
      rw [a, b] at this
      exact absurd this.1 (lt_irrefl _)
  rw [hl] at l2
  cases l2 with
  | cons a b =>
    cases b
    exact ⟨_, hrows, a⟩

/-- The record of the example with radius 20. -/
noncomputable def wideRec : Rec := ⟨90, 5, 20, fun _ => 0, 1, 74⟩

/-- Two OCB records with different radii, one EAB record, paired with the second. -/
noncomputable def skewDual : DualObj := ⟨[wideRec, Coord.exRec], [Coord.exEab], [1], [0], 0, 1, 0, 1, 74, 64⟩

theorem skewDual_ok : Coord.PairOk (atPair skewDual 0) Coord.exRec Coord.exEab :=
  ⟨⟨by simp [skewDual, atPair], by simp [skewDual, atPair, DualObj.records], rfl, rfl, by simp [skewDual, atPair],
      by simp [skewDual, atPair], rfl, rfl⟩,
    Coord.exRec_valid, Coord.exEab_valid, fun _ => rfl, fun _ => rfl, rfl, rfl, rfl, rfl,
    by norm_num [skewDual, atPair], by norm_num [skewDual, atPair]⟩

theorem skew_place (lat mlt : F) : ∃ o, (dual skewDual 1 (Cycle.dualCycler [0]) 0).place 0 lat mlt = .ok o := by
  obtain ⟨out, s', h1, h2⟩ := Coord.C35_piecewise skewDual_ok noStore (noStore_wf _) 0 [(lat, mlt)] false
  cases h2 with
  | cons h3 h4 =>
    cases h4
    unfold dual
    simp only [bind, Except.bind, h1]
    exact ⟨_, rfl⟩

/-- C108 is false for a `DualBoundary`: the value is scaled with the radius of the OCB record that has the number of the
pair, not the one in the pair.  Here the pair has the OCB record of radius 16 and the value is scaled with radius 20. -/
theorem C108_dual_radius_refuted :
    ∃ o, write (dual skewDual 1 (Cycle.dualCycler [0]) 0) 1 60 (some Scale.normalCurlEvar) false oneDatum = .ok (.file [o]) ∧
      o.vort = some (Scale.normalCurlEvar 1 20 16) ∧
      selRec skewDual.ocbRecs (atPair skewDual 0).ocbRecInd = some Coord.exRec ∧ Coord.exRec.r = 16 ∧
      o.vort ≠ some (Scale.normalCurlEvar 1 (Coord.exRec.r + Coord.exRec.rf 6) (90 - |skewDual.ocbLat|)) := by
  obtain ⟨o, h1, h2⟩ := oneDatum_row (dual skewDual 1 (Cycle.dualCycler [0]) 0) rfl (.dual [0] (by simp)) rfl
    (some Scale.normalCurlEvar) (by simp [dual, skewDual]) skew_place
  obtain ⟨lat, mlt, v, c, r, e1, e2, e3, e4, e5, e6, e7⟩ := h2.values
  obtain rfl : some 80 = lat := by simpa [oneDatum] using e1
  obtain rfl : some 6 = mlt := by simpa [oneDatum] using e2
  obtain rfl : some 1 = v := by simpa [oneDatum] using e3
  obtain ⟨y, L, M, y1, y2, -⟩ := dual_place (hem := 1) (cyc := Cycle.dualCycler [0]) (rec := 0) skewDual_ok
    (Coord.exGood 80 (by norm_num) (by norm_num))
  rw [e4] at y2
  simp only [Except.ok.injEq, Prod.mk.injEq] at y2
  obtain rfl : (20 : ℝ) = r := by
    simpa [dual, skewDual, wideRec, pyIdx, pyGet] using e5
  have hval : o.vort = some (Scale.normalCurlEvar 1 20 16) := by
    rw [e7 _ rfl, y2.2.2]
    norm_num [dual, skewDual, Coord.exRec]
  refine ⟨o, h1, hval, rfl, rfl, ?_⟩
  rw [hval]
  norm_num [Scale.normalCurlEvar, Coord.exRec, skewDual]

/-! ### the hemisphere of the boundary -/

/-- C109: without a hemisphere argument, the hemisphere of a given boundary object is used. -/
theorem C109_own_partial (b : Bound) (make : ℤ → ℤ → ℤ → Except PyErr Bound) (tol : ℤ) (t : Table) :
    setup (some b) make 0 tol t = .ok (b, b.hem) := rfl

/-- C109: if the hemisphere argument is not the one of the given boundary object, each row has NaN coordinates. -/
theorem C109_nan_rows (recs : List Rec) (bhem hem : ℤ) (blat : ℝ) (cyc : Cycler) (rec : ℤ) (hb : IsBoundary cyc good)
    (h0 : -1 ≤ rec) (hlen : recs.length = cyc.times.length) (hv : ∀ B ∈ recs, B.Valid ∧ B.hem = bhem) (hne : hem ≠ bhem)
    (tol : ℤ) (htol : 0 ≤ tol) (scale : Scale) (saveAll : Bool) (t : Table) (ht : Even saveAll t) (rows : List Row)
    (h : write (single recs bhem blat cyc rec) hem tol scale saveAll t = .ok (.file rows)) (o : Row) (ho : o ∈ rows) :
    o.lat = none ∧ o.mlt = none := by
  obtain ⟨l, -, hf, hl, -, -⟩ := C107_rows (single recs bhem blat cyc rec) hb h0 hem tol htol scale saveAll t ht rows h
  obtain ⟨n, hn, rfl⟩ := List.getElem_of_mem ho
  rw [List.forall₂_iff_get] at hf
  have hnl : n < l.length := by omega
  have hrow := hf.2 n hnl hn
  simp only [List.get_eq_getElem] at hrow
  obtain ⟨⟨x, x1, x2⟩, hc, hk⟩ := hl _ (List.getElem_mem hnl)
  generalize l[n] = q at hrow x1 hc hk
  obtain ⟨i, k⟩ := q
  simp only at hrow x1 hc hk
  obtain ⟨_, _, _, hat, _⟩ := id hc
  obtain ⟨k0, k1⟩ := hat
  have k2 := (List.getElem?_eq_some_iff.1 k1).1
  change k.toNat < cyc.times.length at k2
  obtain ⟨v1, v2⟩ := hv _ (List.getElem_mem (by omega : k.toNat < recs.length))
  obtain ⟨lat, mlt, v, c, r, e1, e2, e3, e4, e5, e6, e7⟩ := hrow.values
  rw [x1, Option.some.injEq] at e1
  subst e1
  obtain ⟨o', o1, o2⟩ := single_place recs bhem blat cyc rec (fun B hB => (hv B hB).1) k (some x) mlt
  rw [e4, Except.ok.injEq] at o1
  subst o1
  rcases o2 recs[k.toNat] k0 (List.getElem?_eq_getElem (by omega)) with ⟨lat, m', e, hin, -⟩ | ⟨-, n2, n3⟩
  · exfalso
    simp only [Prod.mk.injEq, Option.some.injEq] at e
    obtain ⟨rfl, -⟩ := e
    unfold InHem at hin
    rw [v2] at hin
    apply hne
    rw [← x2]
    have : ((SignType.sign x : ℤ) : ℝ) = (bhem : ℝ) := by rw [← hin]; simp
    exact_mod_cast this
  · exact ⟨n2, n3⟩

/-- A southern record. -/
noncomputable def southRec : Rec := ⟨90, 5, 16, fun _ => 0, -1, -74⟩

/-- C109 is false with the argument: northern data and a southern boundary object with `hemisphere=1` give a file with a
row without coordinates, not an error. -/
theorem C109_mismatch_refuted : ∃ (b : Bound) (t : Table) (o : Row), b.hem = -1 ∧
    (do
      let (b', h) ← setup (some b) (fun _ _ _ => .error .ioError) 1 60 t
      write b' h 60 none false t) = .ok (.file [o]) ∧ o.lat = none ∧ o.mlt = none := by
  have hwf : Cycle.Bnd.WF ⟨[0], [.fin 1], [], .fin 0, .pinf⟩ :=
    ⟨rfl, by intro k v h; simp [Cycle.Bnd.attr] at h⟩
  have hv : ∀ B ∈ [southRec], B.Valid ∧ B.hem = ((-1 : ℤ) : ℝ) := by
    intro B hB
    rw [List.mem_singleton] at hB
    subst hB
    exact ⟨⟨.inr rfl, by norm_num [southRec], by rw [abs_lt]; constructor <;> norm_num [southRec]⟩, by norm_num [southRec]⟩
  have hb := IsBoundary.ocb _ none none [] hwf
  obtain ⟨o, h1, -⟩ := oneDatum_row
    (single [southRec] (-1) (-74) (Cycle.Bnd.cycler ⟨[0], [.fin 1], [], .fin 0, .pinf⟩ none none []) 0) rfl hb rfl none
    (by simp [single]) (fun lat mlt => by
      obtain ⟨o, h, -⟩ := single_place [southRec] (-1) (-74)
        (Cycle.Bnd.cycler ⟨[0], [.fin 1], [], .fin 0, .pinf⟩ none none []) 0 (fun B hB => (hv B hB).1) 0 lat mlt
      exact ⟨o, h⟩)
  refine ⟨single [southRec] (-1) (-74) (Cycle.Bnd.cycler ⟨[0], [.fin 1], [], .fin 0, .pinf⟩ none none []) 0, oneDatum, o,
    rfl, h1, ?_⟩
  exact C109_nan_rows [southRec] (-1) 1 (-74) _ 0 hb (by omega) rfl hv (by omega) 60 (by norm_num) none false oneDatum
    (oneDatum_even _) [o] h1 o List.mem_cons_self

/-- The hypotheses of C107 and C108 hold for one northern record and the datum. -/
example : ∃ o, write (single [Coord.exRec] 1 74 (Cycle.Bnd.cycler ⟨[0], [.fin 1], [], .fin 0, .pinf⟩ none none []) 0) 1 60
      (some Scale.normalCurlEvar) false oneDatum = .ok (.file [o]) := by
  have hwf : Cycle.Bnd.WF ⟨[0], [.fin 1], [], .fin 0, .pinf⟩ :=
    ⟨rfl, by intro k v h; simp [Cycle.Bnd.attr] at h⟩
  obtain ⟨o, h1, -⟩ := oneDatum_row
    (single [Coord.exRec] 1 74 (Cycle.Bnd.cycler ⟨[0], [.fin 1], [], .fin 0, .pinf⟩ none none []) 0) rfl
    (.ocb _ none none [] hwf) rfl (some Scale.normalCurlEvar)
    (by simp [single]) (fun lat mlt => by
      obtain ⟨o, h, -⟩ := single_place [Coord.exRec] 1 74
        (Cycle.Bnd.cycler ⟨[0], [.fin 1], [], .fin 0, .pinf⟩ none none []) 0
        (fun B hB => by rw [List.mem_singleton] at hB; subst hB; exact Coord.exRec_valid) 0 lat mlt
      exact ⟨o, h⟩)
  exact ⟨o, h1⟩

/-! ### from the file -/

theorem lists_even {float : Conv} {saveAll : Bool} {bs : List (Block × ℝ)} {t : Table}
    (h : Lists float (numKeys saveAll) bs t) : Even saveAll t := by
  have key : ∀ {α β : Type} (f : Block × ℝ → Entry → α) (g : Block × ℝ → Entry → β),
      (bs.flatMap fun b => b.1.entries.map (f b)).length = (bs.flatMap fun b => b.1.entries.map (g b)).length := by
    intro α β f g
    simp [List.length_flatMap]
  exact ⟨by rw [h.year, h.dtime]; exact key _ _, by rw [h.month, h.dtime]; exact key _ _,
    by rw [h.day, h.dtime]; exact key _ _, by rw [h.uth, h.dtime]; exact key _ _,
    fun k hk => by rw [h.col k hk, h.dtime]; exact key (fun _ e => e.num float k) _⟩

/-- C107: for a well-formed file the table that is worked on has one row for each entry, with the columns of one length, so
that the other claims apply; a file without entries is refused with ValueError. -/
theorem C107_from_file (float : Conv) (saveAll : Bool) (hd : List Line) (bs : List (Block × ℝ))
    (hh : ∀ l ∈ hd, l.head? = some "#".toList) (hb : ∀ b ∈ bs, b.1.Fine float (numKeys saveAll) b.2)
    (given : Option Bound) (make : ℤ → ℤ → ℤ → Except PyErr Bound) (hem tol : ℤ) (scale : Scale) :
    ((∃ b ∈ bs, b.1.entries ≠ []) → ∃ t, Lists float (numKeys saveAll) bs t ∧ Even saveAll t ∧
      vort2ascii float (hd ++ bs.flatMap fun b => b.1.lines) given make hem tol saveAll scale =
        (match setup given make hem tol t with
          | .error e => .error e
          | .ok p => write p.1 p.2 tol scale saveAll t)) ∧
    ((∀ b ∈ bs, b.1.entries = []) →
      vort2ascii float (hd ++ bs.flatMap fun b => b.1.lines) given make hem tol saveAll scale = .error .valueError) := by
  obtain ⟨h1, h2⟩ := Vort.C57_rows float saveAll hd bs hh hb
  constructor
  · intro h
    obtain ⟨t, h3, h4⟩ := h1 h
    refine ⟨t, h4, lists_even h4, ?_⟩
    unfold vort2ascii
    simp only [bind, Except.bind, h3]
    cases setup given make hem tol t <;> rfl
  · intro h
    unfold vort2ascii
    simp only [bind, Except.bind, h2 h]

/-- C106: without a boundary object one is loaded for the period of the data and the tolerance on both sides, and for the
hemisphere asked for or found; data that are not of one hemisphere are refused. -/
theorem C106_loaded (make : ℤ → ℤ → ℤ → Except PyErr Bound) (hem tol : ℤ) (htol : 0 ≤ tol) (t : Table)
    (hD : t.dtime.Pairwise (· ≤ ·)) (b : Bound) (h : ℤ) (hs : setup none make hem tol t = .ok (b, h)) :
    (hem ≠ 0 → h = hem) ∧ (hem = 0 → chooseHem (t.col "CENTRE_MLAT") = .ok h) ∧
    ∃ s e, make s e h = .ok b ∧ ∀ d ∈ t.dtime, s < d - tol ∧ d + tol < e := by
  unfold setup at hs
  simp only [bind, Except.bind, pure, Except.pure] at hs
  split at hs
  · simp at hs
  rename_i first e1
  split at hs
  · simp at hs
  rename_i last e2
  have hmem : ∀ d ∈ t.dtime, first ≤ d ∧ d ≤ last := by
    have e1' : t.dtime[0]? = some first := (pyIdx_nat (i := 0)).1 e1
    obtain ⟨p0, p1⟩ := List.getElem?_eq_some_iff.1 e1'
    unfold pyIdx pyGet at e2
    rw [if_neg (by omega), if_pos (by omega)] at e2
    have e3 : (-1 + (t.dtime.length : ℤ)).toNat = t.dtime.length - 1 := by omega
    rw [e3, List.getElem?_eq_getElem (by omega)] at e2
    simp only [Except.ok.injEq] at e2
    intro d hd
    obtain ⟨n, hn, rfl⟩ := List.getElem_of_mem hd
    rw [← p1, ← e2]
    constructor
    · rcases Nat.eq_zero_or_pos n with rfl | h
      · exact le_rfl
      · exact List.pairwise_iff_getElem.1 hD 0 n p0 hn h
    · rcases Nat.lt_or_ge n (t.dtime.length - 1) with h | h
      · exact List.pairwise_iff_getElem.1 hD n _ hn _ h
      · have : n = t.dtime.length - 1 := by omega
        simp only [this, le_refl]
  have fin : ∀ h', (make (first - (tol + 1000000)) (last + (tol + 1000000)) h').bind (fun b => .ok (b, h')) =
      Except.ok (b, h) → h' = h ∧ ∃ s e, make s e h = .ok b ∧ ∀ d ∈ t.dtime, s < d - tol ∧ d + tol < e := by
    intro h' hx
    unfold Except.bind at hx
    split at hx
    · simp at hx
    rename_i b' hb'
    simp only [Except.ok.injEq, Prod.mk.injEq] at hx
    obtain ⟨rfl, rfl⟩ := hx
    exact ⟨rfl, _, _, hb', fun d hd => by have := hmem d hd; omega⟩
  by_cases hz : hem = 0
  · rw [if_pos hz] at hs
    split at hs
    · simp at hs
    rename_i h' e3
    obtain ⟨rfl, f⟩ := fin h' hs
    exact ⟨fun x => absurd hz x, fun _ => e3, f⟩
  · rw [if_neg hz] at hs
    obtain ⟨rfl, f⟩ := fin hem hs
    exact ⟨fun _ => rfl, fun x => absurd x hz, f⟩

end Ocb.VortOut
