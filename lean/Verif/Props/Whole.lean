import Verif.Model.Whole
import Verif.Props.Time
import Verif.Props.Dual

/-!
# Properties of calls with whole numbers

C159 for `fix_range`, C160 for the boundary latitudes and the dual `normal_coord`, C161 for `normal_coord`, C162 for the
quadrants of the pole: a whole number given as an integer is treated as the same number given as a float.
-/

set_option autoImplicit false

namespace Ocb.Whole

open Ocb.Time (isHigh isLow highPass lowPass FixRangeArr subFl addFl fixRange)
open Ocb.Coord

/-! ### C159 -/

/-- An integer as an entry of a float array. -/
def flt (z : ℤ) : Fl ℝ := .fin (z : ℝ)

theorem flt_injective : Function.Injective flt := fun a b h => by
  simpa [flt] using h

/-- A loop carried over to another kind of state. -/
theorem While.map {σ τ : Type*} {c : σ → Bool} {b : σ → σ} {c' : τ → Bool} {b' : τ → τ} (f : σ → τ)
    (hc : ∀ s, c' (f s) = c s) (hb : ∀ s, b' (f s) = f (b s)) (s : σ) (u : τ) :
    While c' b' (f s) u ↔ ∃ t, While c b s t ∧ u = f t := by
  constructor
  · intro h
    generalize hx : f s = x at h
    induction h generalizing s with
    | done h => exact ⟨s, .done (by rw [← hc, hx]; exact h), hx.symm⟩
    | @step x u h _ ih =>
      obtain ⟨t, h1, h2⟩ := ih (b s) (by rw [← hb, hx])
      exact ⟨t, .step (by rw [← hc, hx]; exact h) h1, h2⟩
  · rintro ⟨t, h, rfl⟩
    induction h with
    | done h => exact .done (by rw [hc]; exact h)
    | step h _ ih => exact .step (by rw [hc]; exact h) (by rw [hb]; exact ih)

theorem any_high (mx : ℝ) (l : List ℤ) :
    (l.map flt).any (isHigh mx) = l.any fun z => decide (mx ≤ z) := by
  rw [List.any_map]; rfl

theorem any_low (mn : ℝ) (l : List ℤ) :
    (l.map flt).any (isLow mn) = l.any fun z => decide ((z : ℝ) < mn) := by
  rw [List.any_map]; rfl

theorem pass_high (mx : ℝ) (p : ℤ) (l : List ℤ) :
    highPass mx (p : ℝ) (l.map flt) = (l.map fun z : ℤ => if mx ≤ z then z - p else z).map flt := by
  simp only [highPass, List.map_map]
  refine List.map_congr_left fun z _ => ?_
  simp only [Function.comp, flt, isHigh, Fl.le, decide_eq_true_eq, subFl]
  split_ifs <;> push_cast <;> rfl

theorem pass_low (mn : ℝ) (p : ℤ) (l : List ℤ) :
    lowPass mn (p : ℝ) (l.map flt) = (l.map fun z : ℤ => if (z : ℝ) < mn then z + p else z).map flt := by
  simp only [lowPass, List.map_map]
  refine List.map_congr_left fun z _ => ?_
  simp only [Function.comp, flt, isLow, Fl.lt, decide_eq_true_eq, addFl]
  split_ifs <;> push_cast <;> rfl

theorem intPeriod_val {mn mx : Scal} {vr : Option Scal} {p : ℤ} (h : intPeriod mn mx vr = some p) :
    (vr.map Scal.val).getD (mx.val - mn.val) = p := by
  unfold intPeriod at h
  split at h
  · cases h; rfl
  · cases h
  · split at h
    · cases h; simp [Scal.val]
    · cases h

/-- C159: with an integer period (an integer `val_range`, or none and two integer limits) the integers come out that the
call with floats gives, and the same errors. -/
theorem C159_integer_range (l : List ℤ) (mn mx : Scal) (vr : Option Scal) (p : ℤ) (hp : intPeriod mn mx vr = some p)
    (out : Except PyErr (Nums (Fl ℝ))) :
    FixNums (.ints l) mn mx vr out ↔
      (∃ e, out = .error e ∧ FixRangeArr (l.map flt) mn.val mx.val (vr.map Scal.val) (.error e)) ∨
      (∃ zs, out = .ok (.ints zs) ∧ FixRangeArr (l.map flt) mn.val mx.val (vr.map Scal.val) (.ok (zs.map flt))) := by
  unfold FixNums FixRangeArr
  by_cases h1 : mx.val ≤ mn.val
  · simp [h1]
  simp only [if_neg h1, hp, intPeriod_val hp]
  by_cases h2 : (p : ℝ) ≤ 0
  · simp only [if_pos h2]; simp
  simp only [if_neg h2]
  have e1 := While.map (c' := fun s => s.any (isHigh mx.val)) (c := fun s : List ℤ => s.any fun z => decide (mx.val ≤ z))
    (List.map flt) (any_high mx.val) (pass_high mx.val p)
  have e2 := While.map (c' := fun s => s.any (isLow mn.val)) (c := fun s : List ℤ => s.any fun z => decide ((z : ℝ) < mn.val))
    (List.map flt) (any_low mn.val) (pass_low mn.val p)
  constructor
  · rintro ⟨ys, zs, a, b, rfl⟩
    exact .inr ⟨zs, rfl, _, _, (e1 _ _).2 ⟨ys, a, rfl⟩, (e2 _ _).2 ⟨zs, b, rfl⟩, rfl⟩
  · rintro (⟨e, -, ys, zs, -, -, h⟩ | ⟨zs, rfl, ys, zs', a, b, h⟩)
    · cases h
    · obtain ⟨t, a1, rfl⟩ := (e1 _ _).1 a
      obtain ⟨u, b1, rfl⟩ := (e2 _ _).1 b
      cases flt_injective.list_map (Except.ok.inj h)
      exact ⟨t, zs, a1, b1, rfl⟩

/-- C159, what that means for each entry: a valid call returns one list, and its entries are those of the call for single
floats. -/
theorem C159_integer_range_entries (l : List ℤ) (mn mx : Scal) (vr : Option Scal) (p : ℤ)
    (hp : intPeriod mn mx vr = some p) (h : mn.val < mx.val) (hr : 0 < p) :
    ∃ zs, (∀ out, FixNums (.ints l) mn mx vr out ↔ out = .ok (.ints zs)) ∧
      List.Forall₂ (fun z w : ℤ => fixRange (z : ℝ) mn.val mx.val (vr.map Scal.val) = .ok (w : ℝ)) l zs := by
  obtain ⟨ys, h1, h2⟩ := Time.C02_fix_range_array_partial (l.map flt) mn.val mx.val (vr.map Scal.val)
    (by
      intro x hx
      obtain ⟨z, -, rfl⟩ := List.mem_map.1 hx
      simp [flt]) h (by rw [intPeriod_val hp]; exact_mod_cast hr)
  have h3 := (h1 (.ok ys)).2 rfl
  have h4 : ∃ zs : List ℤ, ys = zs.map flt := by
    have hv := intPeriod_val hp
    rw [FixRangeArr, if_neg (not_le.2 h)] at h3
    simp only [hv] at h3
    rw [if_neg (by push Not; exact_mod_cast hr)] at h3
    obtain ⟨y, z, a, b, c⟩ := h3
    obtain ⟨t, -, rfl⟩ := (While.map (c := fun s : List ℤ => s.any fun z => decide (mx.val ≤ z)) (List.map flt) (any_high mx.val) (pass_high mx.val p) _ _).1 a
    obtain ⟨u, -, rfl⟩ := (While.map (c := fun s : List ℤ => s.any fun z => decide ((z : ℝ) < mn.val)) (List.map flt) (any_low mn.val) (pass_low mn.val p) _ _).1 b
    exact ⟨u, Except.ok.inj c⟩
  obtain ⟨zs, rfl⟩ := h4
  refine ⟨zs, fun out => ?_, ?_⟩
  · rw [C159_integer_range l mn mx vr p hp]
    constructor
    · rintro (⟨e, rfl, h⟩ | ⟨w, rfl, h⟩)
      · cases (h1 _).1 h
      · cases flt_injective.list_map (Except.ok.inj ((h1 _).1 h)); rfl
    · rintro rfl
      exact .inr ⟨zs, rfl, h3⟩
  · rw [List.forall₂_map_left_iff, List.forall₂_map_right_iff] at h2
    refine h2.imp fun z w hzw => ?_
    obtain ⟨v, e1, e2⟩ := hzw
    cases e2
    exact e1

/-- C159, the part that holds with a float period: integers that are within the limits already are returned unchanged, as
floats would be. -/
theorem C159_float_range_partial (l : List ℤ) (mn mx : Scal) (vr : Option Scal) (hp : intPeriod mn mx vr = none)
    (h : mn.val < mx.val) (hr : 0 < (vr.map Scal.val).getD (mx.val - mn.val))
    (hl : ∀ z ∈ l, mn.val ≤ z ∧ (z : ℝ) < mx.val) :
    (∀ out, FixNums (.ints l) mn mx vr out ↔ out = .ok (.ints l)) ∧
      FixRangeArr (l.map flt) mn.val mx.val (vr.map Scal.val) (.ok (l.map flt)) := by
  have a : (l.any fun z => decide (mx.val ≤ z)) = false := by
    rw [List.any_eq_false]; intro z hz; simpa using (hl z hz).2
  have b : (l.any fun z => decide ((z : ℝ) < mn.val)) = false := by
    rw [List.any_eq_false]; intro z hz; simpa using (hl z hz).1
  constructor
  · intro out
    unfold FixNums
    simp only [if_neg (not_le.2 h), if_neg (not_le.2 hr), hp, a, b]
    simp
  · rw [FixRangeArr, if_neg (not_le.2 h)]
    simp only [if_neg (not_le.2 hr)]
    exact ⟨_, _, .done (by rw [any_high, a]), .done (by rw [any_low, b]), rfl⟩

/-- C159, refuted with a float period: as soon as one integer has to be moved the call raises TypeError, where the same
numbers as floats are moved into the range. -/
theorem C159_float_range_refuted (l : List ℤ) (mn mx : Scal) (vr : Option Scal) (hp : intPeriod mn mx vr = none)
    (h : mn.val < mx.val) (hr : 0 < (vr.map Scal.val).getD (mx.val - mn.val))
    (z : ℤ) (hz : z ∈ l) (hl : ¬ (mn.val ≤ z ∧ (z : ℝ) < mx.val)) :
    (∀ out, FixNums (.ints l) mn mx vr out ↔ out = .error .typeError) ∧
      ∃ ys, FixRangeArr (l.map flt) mn.val mx.val (vr.map Scal.val) (.ok ys) := by
  constructor
  · intro out
    unfold FixNums
    simp only [if_neg (not_le.2 h), if_neg (not_le.2 hr), hp]
    split_ifs with a b
    · rfl
    · rfl
    · exfalso
      refine hl ⟨?_, ?_⟩
      · by_contra hc
        exact b (List.any_eq_true.2 ⟨z, hz, by simpa using hc⟩)
      · by_contra hc
        exact a (List.any_eq_true.2 ⟨z, hz, by simpa using hc⟩)
  · obtain ⟨ys, h1, -⟩ := Time.C02_fix_range_array_partial (l.map flt) mn.val mx.val (vr.map Scal.val)
      (by
        intro x hx
        obtain ⟨z, -, rfl⟩ := List.mem_map.1 hx
        simp [flt]) h hr
    exact ⟨ys, (h1 _).2 rfl⟩

/-- `fix_range([370, 5], 0, 360)` has an integer period, `fix_range(25, 0.0, 24.0)` and `fix_range(5, 0, 24, 12.5)` do
not. -/
example : intPeriod (.int 0) (.int 360) none = some 360 ∧ intPeriod (.float 0) (.float 24) none = none ∧
    intPeriod (.int 0) (.int 24) (some (.float 12.5)) = none ∧
    (∀ out, FixNums (.ints [25]) (.float 0) (.float 24) none out ↔ out = .error .typeError) := by
  refine ⟨rfl, rfl, rfl, ?_⟩
  exact (C159_float_range_refuted [25] (.float 0) (.float 24) none rfl (by norm_num [Scal.val]) (by norm_num [Scal.val])
    25 (by simp) (by norm_num [Scal.val])).1

/-- `fix_range([370, 5], 0, 360)` returns `[10, 5]`. -/
example : FixNums (.ints [370, 5]) (.int 0) (.int 360) none (.ok (.ints [10, 5])) := by
  unfold FixNums
  rw [if_neg (by norm_num [Scal.val])]
  simp only []
  rw [if_neg (by norm_num [Scal.val])]
  refine ⟨[10, 5], [10, 5], .step (t := [10, 5]) (by norm_num [Scal.val]) ?_, .done (by norm_num [Scal.val]), rfl⟩
  have h : List.map (fun z : ℤ => if (Scal.int 360).val ≤ z then z - (360 - 0) else z) [370, 5] = [10, 5] := by
    norm_num [Scal.val]
  rw [h]
  exact .done (by norm_num [Scal.val])

/-! ### C161 -/

/-- The values of an array as numbers that may be NaN. -/
theorem vals_length {α : Type} (c : ℤ → α) (a : Nums α) :
    (a.vals c).length = match a with | .ints l => l.length | .floats l => l.length := by
  cases a <;> simp [Nums.vals]

theorem zip_fst {α β : Type} {l : List α} {m : List β} (h : l.length = m.length) : (l.zip m).map (·.1) = l :=
  List.map_fst_zip h.le

theorem wrong_num (hem : ℝ) (z : ℤ) : wrongHem hem (num z) = true ↔ ¬ InHem hem z := by
  simp [wrongHem, num, InHem]

/-- C161: local times may be integers, if the latitudes are floats or all of one hemisphere (or none in the right one):
the result is that of the floats. -/
theorem C161_normal_same_partial (rec : Option Rec) (lat lt : Nums (Option ℝ))
    (hlen : (lat.vals num).length = (lt.vals num).length)
    (h : ∀ l, lat = .ints l → ∀ B, rec = some B → (∀ z ∈ l, InHem B.hem z) ∨ ∀ z ∈ l, ¬ InHem B.hem z) :
    normalNums rec lat lt = normalArr rec ((lat.vals num).zip (lt.vals num)) := by
  unfold normalNums
  cases rec with
  | none => rfl
  | some B =>
    simp only [zip_fst hlen]
    refine if_neg ?_
    cases lat with
    | floats l => simp [Nums.isInt]
    | ints l =>
      rcases h l rfl B rfl with h | h
      · have : ((Nums.ints l : Nums (Option ℝ)).vals num).any (wrongHem B.hem) = false := by
          rw [List.any_eq_false]
          intro x hx
          obtain ⟨z, hz, rfl⟩ := List.mem_map.1 hx
          rw [wrong_num]; exact not_not.2 (h z hz)
        simp [this]
      · have : ((Nums.ints l : Nums (Option ℝ)).vals num).all (wrongHem B.hem) = true := by
          rw [List.all_eq_true]
          intro x hx
          obtain ⟨z, hz, rfl⟩ := List.mem_map.1 hx
          rw [wrong_num]; exact h z hz
        simp [this]

/-- C161, refuted: integer latitudes of which some, but not all, are of the hemisphere of the boundary raise ValueError,
where the same latitudes as floats give numbers for those of the hemisphere and NaN for the others. -/
theorem C161_normal_mixed_refuted (B : Rec) (hB : B.Valid) (l : List ℤ) (lt : Nums (Option ℝ))
    (hlen : l.length = (lt.vals num).length) (a b : ℤ) (ha : a ∈ l) (hb : b ∈ l) (hia : InHem B.hem a)
    (hib : ¬ InHem B.hem b) :
    normalNums (some B) (.ints l) lt = .error .valueError ∧
      ∃ out lats, normalArr (some B) ((l.map num).zip (lt.vals num)) = .ok (out, lats) ∧
        List.Forall₂ (NormalOut B) ((l.map num).zip (lt.vals num)) out := by
  refine ⟨?_, C27_normal_entries B hB _⟩
  unfold normalNums
  have hz : (Nums.ints l : Nums (Option ℝ)).vals num = l.map num := rfl
  simp only [hz, zip_fst (show (l.map num).length = (lt.vals num).length by simpa using hlen)]
  refine if_pos ?_
  have h1 : (l.map num).any (wrongHem B.hem) = true :=
    List.any_eq_true.2 ⟨num b, List.mem_map.2 ⟨b, hb, rfl⟩, (wrong_num _ _).2 hib⟩
  have h2 : (l.map num).all (wrongHem B.hem) = false := by
    rw [List.all_eq_false]
    exact ⟨num a, List.mem_map.2 ⟨a, ha, rfl⟩, by rw [wrong_num]; exact not_not.2 hia⟩
  simp [Nums.isInt, h1, h2]

example : InHem exRec.hem ((75 : ℤ) : ℝ) ∧ ¬ InHem exRec.hem ((-75 : ℤ) : ℝ) := by
  constructor
  · simp [InHem, exRec]
  · have : SignType.sign ((-75 : ℤ) : ℝ) = -1 := sign_neg (by norm_num)
    simp only [InHem, exRec, this]; norm_num

/-! ### C160 -/

/-- C160, refuted for `get_aacgm_boundary_lat`: for an existing record the call with floats stores a latitude for each local
time; the call with the same numbers as integers raises TypeError and stores nothing. -/
theorem C160_boundary_refuted (recs : List Rec) (s : Store) (hs : s.WF recs.length) (hp : s.Paired) (ref : ℕ) (i : ℤ)
    (B : Rec) (hi : 0 ≤ i) (hB : recs[i.toNat]? = some B) (hd : B.Daily) (l : List ℤ) (hl : s.heap ref = l.map num) :
    boundaryNums recs s ref true (some [i]) true = (s, some .typeError) ∧
      ∃ s', boundaryNums recs s ref false (some [i]) true = (s', none) ∧
        s'.slot i.toNat = some (l.map fun z : ℤ => bLat B z) := by
  refine ⟨rfl, ?_⟩
  obtain ⟨s', h1, -, -, -, -, -, h2, -⟩ := get_one recs s hs hp ref i B hi hB hd
  refine ⟨s', h1, ?_⟩
  rw [h2, hl, List.map_map]
  rfl

/-- The step with the boundary latitudes for integer local times. -/
theorem boundStepNums_int {D : DualObj} {O E : Rec} (hD : Sel D O E) (s : DStore) (hs : s.WF D) (ref : ℕ) (ow : Bool) :
    boundStepNums D s ref true ow = .error .typeError := by
  have o := currentOf_out s.ocb _ hs.oWF hs.oPaired D.ocbRecInd hD.oPos
    (List.getElem?_eq_some_iff.1 hD.oRec).1
  have e := currentOf_out s.eab _ hs.eWF hs.ePaired D.eabRecInd hD.ePos
    (List.getElem?_eq_some_iff.1 hD.eRec).1
  simp only [DStore.ocb, DStore.eab] at o e
  unfold boundStepNums boundaryLatsNums boundaryNums
  rw [o, e, pyIdx_pos hD.pos hD.oInd, pyIdx_pos hD.pos hD.eInd]
  cases ow <;> simp [bind, Except.bind, pure, Except.pure]

/-- The step for floats is that of the other model. -/
theorem boundStepNums_float (D : DualObj) (s : DStore) (ref : ℕ) (ow : Bool) :
    boundStepNums D s ref false ow = boundStep D s ref ow := by
  have hl : boundaryLatsNums D s ref false = getBoundaryLats D s ref := rfl
  unfold boundStepNums boundStep
  rw [hl]
  cases ow with
  | true =>
    simp only [if_true, bind, Except.bind, pure, Except.pure]
    cases getBoundaryLats D s ref <;> rfl
  | false =>
    simp only [bind, Except.bind, pure, Except.pure]
    cases currentOf s.ocbLats s.ocbMlts D.ocbRecInd with
    | error e => rfl
    | ok o =>
      cases currentOf s.eabLats s.eabMlts D.eabRecInd with
      | error e => rfl
      | ok e => cases getBoundaryLats D s ref <;> rfl

/-- C160, the part that holds: with float local times the dual `normal_coord` is the one for floats, if the latitudes are
floats or integers of one hemisphere. -/
theorem C160_dual_float_partial (D : DualObj) (s : DStore) (fresh : ℕ) (lat : Nums (Option ℝ)) (lt : List (Option ℝ))
    (ow : Bool) (hlen : (lat.vals num).length = lt.length)
    (h : ∀ l, lat = .ints l → ∀ B, selRec D.ocbRecs D.ocbRecInd = some B →
      (∀ z ∈ l, InHem B.hem z) ∨ ∀ z ∈ l, ¬ InHem B.hem z) :
    dualNums D s fresh lat (.floats lt) ow = dualNormal D s fresh ((lat.vals num).zip lt) ow := by
  unfold dualNums dualNormal
  rw [C161_normal_same_partial _ lat (.floats lt) hlen h]
  simp only [Nums.isInt, boundStepNums_float]
  rfl

/-- C160, refuted for the dual `normal_coord`: integer local times raise TypeError as soon as one location is of the
hemisphere, where the same local times as floats give coordinates. -/
theorem C160_dual_refuted {D : DualObj} {O E : Rec} (hD : PairOk D O E) (s : DStore) (hs : s.WF D) (fresh : ℕ)
    (lat : List (Option ℝ)) (lt : List ℤ) (ow : Bool) (hlen : lat.length = lt.length)
    (a : ℝ) (ha : some a ∈ lat) (hin : InHem D.hem a) :
    dualNums D s fresh (.floats lat) (.ints lt) ow = .error .typeError ∧
      ∃ out s', dualNums D s fresh (.floats lat) (.floats (lt.map num)) ow = .ok (out, s') ∧
        List.Forall₂ (DualOut D O E) (lat.zip (lt.map num)) out := by
  have hlen' : lat.length = (lt.map num).length := by simpa using hlen
  constructor
  · unfold dualNums
    simp only [Nums.vals]
    rw [if_neg (by have := hD.sel.pos; have := hD.sel.lt; omega), selRec_sel hD.sel,
      C161_normal_same_partial _ (.floats lat) (.ints lt) hlen' (by intro l h; cases h)]
    simp only [Nums.vals]
    obtain ⟨out, lats, h1, h2⟩ := C27_normal_entries O hD.oValid (lat.zip (lt.map num))
    rw [h1]
    simp only [bind, Except.bind]
    rw [if_neg, show (Nums.ints lt : Nums (Option ℝ)).isInt = true from rfl, boundStepNums_int hD.sel]
    · exact ⟨hs.oWF, hs.eWF, hs.oPaired, hs.ePaired⟩
    · rw [Bool.not_eq_true, List.all_eq_false]
      obtain ⟨i, hi, hia⟩ := List.getElem_of_mem ha
      have hi2 : i < (lat.zip (lt.map num)).length := by rw [List.length_zip, ← hlen']; simpa using hi
      have hi3 : i < out.length := by rw [← h2.length_eq]; exact hi2
      refine ⟨out[i], List.getElem_mem hi3, ?_⟩
      have h3 := (List.forall₂_iff_get.1 h2).2 i hi2 hi3
      simp only [List.get_eq_getElem, List.getElem_zip, List.getElem_map] at h3
      rcases h3 with ⟨x, y, -, -, L, M, -, h, -⟩ | ⟨h, -⟩
      · rw [h]; simp
      · exact absurd (by rw [hD.oHem]; exact hin) (h a _ (by rw [hia, num]))
  · obtain ⟨out, s', h1, -, -, h2⟩ := dualNormal_out hD s hs fresh (lat.zip (lt.map num)) ow
    exact ⟨out, s', by rw [C160_dual_float_partial D s fresh (.floats lat) _ ow hlen' (by intro l h; cases h)]; exact h1, h2⟩

/-- No location of the hemisphere: the type of the local times plays no role. -/
theorem dual_nan {D : DualObj} {O E : Rec} (hD : PairOk D O E) (s : DStore) (fresh : ℕ) (lat : List (Option ℝ)) (ow : Bool)
    (h : ∀ a, some a ∈ lat → ¬ InHem D.hem a) (pts : List (Option ℝ × Option ℝ)) :
    ∃ r, ∀ lt : Nums (Option ℝ), lat.length = (lt.vals num).length → lat.zip (lt.vals num) = pts →
      dualNums D s fresh (.floats lat) lt ow = .ok r := by
  obtain ⟨out, lats, h1, h2⟩ := C27_normal_entries O hD.oValid pts
  refine ⟨(out.map fun o => (o.1, o.2.1, o.1, o.2.2), s), ?_⟩
  rintro lt hlen rfl
  unfold dualNums
  rw [if_neg (by have := hD.sel.pos; have := hD.sel.lt; omega), selRec_sel hD.sel,
    C161_normal_same_partial _ (.floats lat) lt hlen (by intro l h; cases h)]
  rw [show (Nums.floats lat).vals num = lat from rfl, h1]
  simp only [bind, Except.bind]
  rw [if_pos]
  · rfl
  · rw [List.all_eq_true]
    intro o ho
    obtain ⟨i, hi, rfl⟩ := List.getElem_of_mem ho
    have hi2 : i < (lat.zip (lt.vals num)).length := by rw [h2.length_eq]; exact hi
    have h3 := (List.forall₂_iff_get.1 h2).2 i hi2 hi
    simp only [List.get_eq_getElem] at h3
    rcases h3 with ⟨x, y, hxy, hin, -⟩ | ⟨-, h, -⟩
    · exfalso
      rw [List.getElem_zip] at hxy
      refine h x ?_ (by rw [← hD.oHem]; exact hin)
      rw [← (Prod.mk.inj hxy).1]
      exact List.getElem_mem _
    · rw [h]; rfl

/-- C160, what is left: with integer local times the dual `normal_coord` returns only if no location is of the hemisphere,
and then the result is that of the floats. -/
theorem C160_dual_returns_partial {D : DualObj} {O E : Rec} (hD : PairOk D O E) (s : DStore) (hs : s.WF D) (fresh : ℕ)
    (lat : List (Option ℝ)) (lt : List ℤ) (ow : Bool) (hlen : lat.length = lt.length) :
    ((∃ r, dualNums D s fresh (.floats lat) (.ints lt) ow = .ok r) ↔ ∀ a, some a ∈ lat → ¬ InHem D.hem a) ∧
      ∀ r, dualNums D s fresh (.floats lat) (.ints lt) ow = .ok r →
        dualNums D s fresh (.floats lat) (.floats (lt.map num)) ow = .ok r := by
  have hlen' : lat.length = (lt.map num).length := by simpa using hlen
  have back : ∀ r, dualNums D s fresh (.floats lat) (.ints lt) ow = .ok r → ∀ a, some a ∈ lat → ¬ InHem D.hem a := by
    intro r hr a ha hin
    rw [(C160_dual_refuted hD s hs fresh lat lt ow hlen a ha hin).1] at hr
    cases hr
  refine ⟨⟨fun ⟨r, hr⟩ => back r hr, fun h => ?_⟩, fun r hr => ?_⟩
  · obtain ⟨r, hr⟩ := dual_nan hD s fresh lat ow h (lat.zip (lt.map num))
    exact ⟨r, hr (.ints lt) hlen' rfl⟩
  · obtain ⟨r', hr'⟩ := dual_nan hD s fresh lat ow (back r hr) (lat.zip (lt.map num))
    have e := hr' (.ints lt) hlen' rfl
    rw [hr] at e
    rw [hr' (.floats (lt.map num)) hlen' rfl, ← e]

/-- `dual.normal_coord(80.0, 6)`: the conditions of `C160_dual_refuted`. -/
example : PairOk exDual exRec exEab ∧ InHem exDual.hem 80 ∧ (some (80 : ℝ)) ∈ [some (80 : ℝ)] :=
  ⟨exDual_ok, by simp [InHem, exDual], by simp⟩

/-! ### C162 -/

/-- C162, the part that holds: the quadrants for local times of which one or both are floats, and for integers whose
difference needs no day to be added or removed. -/
theorem C162_quad_same_partial (d p : Nums (Option ℝ)) (ang : List (Option ℝ))
    (h : ∀ a b, d = .ints a → p = .ints b → ∀ q ∈ a.zip b, 0 ≤ q.2 - q.1 ∧ q.2 - q.1 < 24) :
    poleQuadNums d p ang =
      .ok ((((d.vals num).zip (p.vals num)).zip ang).map fun x => Vec.poleQuad x.1.1 x.1.2 x.2) := by
  unfold poleQuadNums
  cases d with
  | floats a => rfl
  | ints a =>
    cases p with
    | floats b => rfl
    | ints b =>
      have hm : ∀ z ∈ List.zipWith (fun a b => b - a) a b, 0 ≤ z ∧ z < 24 := by
        intro z hz
        rw [← List.map_uncurry_zip_eq_zipWith] at hz
        obtain ⟨q, hq, rfl⟩ := List.mem_map.1 hz
        exact h a b rfl rfl q hq
      simp only []
      rw [if_neg, if_neg]
      · rw [Bool.not_eq_true, List.any_eq_false]
        intro z hz
        have := hm z hz
        simp [abs_of_nonneg this.1, this.2]
      · rw [Bool.not_eq_true, List.any_eq_false]
        intro z hz
        simpa using (hm z hz).1

/-- C162, refuted: two integer arrays raise TypeError as soon as one pole is at an earlier hour than its datum, or a day
later, where the same hours as floats give quadrants. -/
theorem C162_quad_refuted (a b : List ℤ) (ang : List (Option ℝ)) (q : ℤ × ℤ) (hq : q ∈ a.zip b)
    (h : q.2 < q.1 ∨ q.1 + 24 ≤ q.2) :
    poleQuadNums (.ints a) (.ints b) ang = .error .typeError ∧
      ∃ out, poleQuadNums (.floats (a.map num)) (.floats (b.map num)) ang = .ok out := by
  refine ⟨?_, _, rfl⟩
  have hz : q.2 - q.1 ∈ List.zipWith (fun a b => b - a) a b := by
    rw [← List.map_uncurry_zip_eq_zipWith]
    exact List.mem_map.2 ⟨q, hq, rfl⟩
  unfold poleQuadNums
  simp only []
  split_ifs with h1 h2
  · rfl
  · rfl
  · exfalso
    rcases h with h | h
    · exact h1 (List.any_eq_true.2 ⟨_, hz, by simpa using h⟩)
    · exact h2 (List.any_eq_true.2 ⟨_, hz, by rw [decide_eq_true_eq, abs_of_nonneg (by omega)]; omega⟩)

/-- Data at 22 h and the pole at 4 h and 5 h: no quadrants as integers. -/
example : poleQuadNums (.ints [22, 1]) (.ints [4, 5]) [some 30, some 30] = .error .typeError :=
  (C162_quad_refuted [22, 1] [4, 5] [some 30, some 30] (22, 4) (by simp) (by norm_num)).1

end Ocb.Whole
