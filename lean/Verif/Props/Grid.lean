import Verif.Model.Grid
import Mathlib.Data.List.Basic
import Mathlib.Data.List.Forall2
import Mathlib.Data.List.Flatten
import Mathlib.Tactic.Linarith
import Mathlib.Tactic.Ring

/-! # C92, C93: data with several dimensions -/

set_option autoImplicit false

namespace Ocb.Grid

open Ocb.Files

variable {α : Type}

/-! ## Specification -/

/-- The values wanted: for each true cell of the mask, in row-major order, the value of the data at the same labels. -/
def want (data : Arr (Option α)) (mask : Arr Bool) : List (Option α) :=
  ((indices mask.size).filter mask.val).map fun ix => data.val (data.dims.map fun d => ix.getD (mask.dims.idxOf d) 0)

/-- The dimensions are distinct and have one size each. -/
def Arr.WF (a : Arr α) : Prop := a.dims.Nodup ∧ a.size.length = a.dims.length

/-- Every cell whose row, column and so on contain true cells is true. -/
def Rectangular (mask : Arr Bool) : Prop :=
  ∀ ix ∈ indices mask.size, (∀ d < mask.size.length, ∃ jx ∈ indices mask.size, mask.val jx = true ∧ jx.getD d 0 = ix.getD d 0) →
    mask.val ix = true

/-! ## Lemmas -/

theorem mem_indices (sh ix : List ℕ) : ix ∈ indices sh ↔ List.Forall₂ (· < ·) ix sh := by
  induction sh generalizing ix with
  | nil => simp [indices]
  | cons n sh ih =>
    simp only [indices, List.mem_flatMap, List.mem_range, List.mem_map, ih]
    constructor
    · rintro ⟨i, hi, jx, hj, rfl⟩
      exact .cons hi hj
    · rintro h
      cases h with
      | cons hi hj => exact ⟨_, hi, _, hj, rfl⟩

theorem product_filter (sh : List ℕ) (P : ℕ → ℕ → Bool) (s : ℕ) :
    product ((sh.zipIdx s).map fun nd => (List.range nd.1).filter (P nd.2)) =
      (indices sh).filter fun ix => (ix.zipIdx s).all fun id => P id.2 id.1 := by
  induction sh generalizing s with
  | nil => rfl
  | cons n sh ih =>
    simp only [List.zipIdx_cons, List.map_cons, product, ih (s + 1), indices]
    induction List.range n with
    | nil => simp
    | cons i l ihl =>
      simp only [List.flatMap_cons, List.filter_append, ← ihl, List.filter_cons]
      split_ifs with h
      · rw [List.flatMap_cons]
        congr 1
        rw [List.filter_map]
        congr 1
        apply List.filter_congr
        intro x _
        simp [List.zipIdx_cons, h]
      · have : List.filter (fun ix => (ix.zipIdx s).all fun id => P id.2 id.1) (List.map (i :: ·) (indices sh)) = [] := by
          rw [List.filter_eq_nil_iff]
          intro x hx
          obtain ⟨y, -, rfl⟩ := List.mem_map.1 hx
          simp [List.zipIdx_cons, h]
        rw [this, List.nil_append]

theorem forall₂_get {ix sh : List ℕ} (h : List.Forall₂ (· < ·) ix sh) :
    ix.length = sh.length ∧ ∀ j, j < sh.length → ix.getD j 0 < sh.getD j 0 := by
  induction h with
  | nil => simp
  | cons hi _ ih =>
    refine ⟨by simp [ih.1], fun j hj => ?_⟩
    cases j with
    | zero => simpa using hi
    | succ j => simpa using ih.2 j (by simpa using hj)

theorem all_zipIdx (ix : List ℕ) (P : ℕ → ℕ → Bool) :
    (ix.zipIdx.all fun id => P id.2 id.1) = true ↔ ∀ d < ix.length, P d (ix.getD d 0) = true := by
  rw [List.all_eq_true]
  constructor
  · intro h d hd
    have := h (ix[d], d) (by simp [List.mem_zipIdx_iff_getElem?])
    simpa [List.getD_eq_getElem?_getD, hd] using this
  · rintro h ⟨i, d⟩ hm
    rw [List.mem_zipIdx_iff_getElem?] at hm
    simp only at hm ⊢
    have hd := (List.getElem?_eq_some_iff.1 hm).1
    simpa [List.getD_eq_getElem?_getD, hm] using h d hd

theorem kept_iff (mask : Arr Bool) (d i : ℕ) :
    kept mask d i = true ↔ ∃ jx ∈ indices mask.size, mask.val jx = true ∧ jx.getD d 0 = i := by
  simp [kept]

/-- The cells that `where(mask, drop=True)` leaves. -/
theorem whereDrop_eq (data : Arr (Option α)) (mask : Arr Bool) :
    whereDrop data mask = ((indices mask.size).filter fun ix => decide (∀ d < mask.size.length, kept mask d (ix.getD d 0) = true)).map
      fun ix => if mask.val ix then data.val ix else none := by
  rw [whereDrop, product_filter]
  congr 1
  apply List.filter_congr
  intro ix hix
  have hl := (forall₂_get ((mem_indices _ _).1 hix)).1
  rw [Bool.eq_iff_iff, all_zipIdx, decide_eq_true_eq, hl]

theorem kept_of_true (mask : Arr Bool) {ix : List ℕ} (h : ix ∈ indices mask.size) (hm : mask.val ix = true) :
    ∀ d < mask.size.length, kept mask d (ix.getD d 0) = true := fun d _ =>
  (kept_iff mask d _).2 ⟨ix, h, hm, rfl⟩

theorem map_getD_idxOf {ix : List ℕ} {ds : List Name} (hn : ds.Nodup) (hl : ix.length = ds.length) :
    (ds.map fun d => ix.getD (ds.idxOf d) 0) = ix := by
  apply List.ext_getElem
  · simp [hl]
  · intro j h1 h2
    have hj : j < ds.length := by simpa using h1
    rw [List.getElem_map, hn.idxOf_getElem j hj, List.getD_eq_getElem?_getD, List.getElem?_eq_getElem h2]
    rfl

/-! ## Theorems -/

/-- C92, equal dimensions: the values wanted are returned exactly if the true cells form a rectangle (data without NaN at
the true cells). -/
theorem C92_same_partial (data : Arr (Option α)) (mask : Arr Bool) (hw : mask.WF) (hd : mask.dims = data.dims)
    (hs : mask.size = data.size) (hv : ∀ ix ∈ indices mask.size, mask.val ix = true → data.val ix ≠ none) :
    reshape data mask = .ok (want data mask) ↔ Rectangular mask := by
  have hwant : want data mask = ((indices mask.size).filter mask.val).map data.val := by
    rw [want]
    apply List.map_congr_left
    intro ix hix
    have hl := (forall₂_get ((mem_indices _ _).1 (List.mem_filter.1 hix).1)).1
    rw [← hd, map_getD_idxOf hw.1 (hl.trans hw.2)]
  rw [reshape, if_pos hd, if_pos hs, Except.ok.injEq, whereDrop_eq, hwant]
  constructor
  · intro h ix hix hr
    by_contra hm
    have hm' : mask.val ix = false := by simpa using hm
    have hin : (none : Option α) ∈ ((indices mask.size).filter mask.val).map data.val := by
      rw [← h]
      refine List.mem_map.2 ⟨ix, List.mem_filter.2 ⟨hix, ?_⟩, by simp [hm']⟩
      rw [decide_eq_true_eq]
      exact fun d hd => (kept_iff mask d _).2 (hr d hd)
    obtain ⟨jx, hj, e⟩ := List.mem_map.1 hin
    obtain ⟨h1, h2⟩ := List.mem_filter.1 hj
    exact hv jx h1 h2 e
  · intro hr
    have hf : (indices mask.size).filter (fun ix => decide (∀ d < mask.size.length, kept mask d (ix.getD d 0) = true)) =
        (indices mask.size).filter mask.val := by
      apply List.filter_congr
      intro ix hix
      rw [Bool.eq_iff_iff, decide_eq_true_eq]
      exact ⟨fun h => hr ix hix fun d hd => (kept_iff mask d _).1 (h d hd), kept_of_true mask hix⟩
    rw [hf]
    apply List.map_congr_left
    intro ix hix
    rw [if_pos (List.mem_filter.1 hix).2]

/-- C92: data with a time and one more dimension, where the mask is true at one time only, as in the loop of
`add_ocb_to_data`, are handled correctly. -/
theorem C92_profile (data : Arr (Option α)) (mask : Arr Bool) (hw : mask.WF) (hd : mask.dims = data.dims) (nt nx t0 : ℕ)
    (hm : mask.size = [nt, nx]) (hs : mask.size = data.size)
    (ht : ∀ ix ∈ indices mask.size, mask.val ix = true → ix.getD 0 0 = t0)
    (hv : ∀ ix ∈ indices mask.size, mask.val ix = true → data.val ix ≠ none) :
    reshape data mask = .ok (want data mask) := by
  rw [C92_same_partial data mask hw hd hs hv]
  intro ix hix h
  obtain ⟨ax, ha, hat, ha0⟩ := h 0 (by simp [hm])
  obtain ⟨bx, hb, hbt, hb1⟩ := h 1 (by simp [hm])
  have e1 := ht ax ha hat
  have e2 := ht bx hb hbt
  have hl : ∀ x ∈ indices mask.size, x = [x.getD 0 0, x.getD 1 0] := by
    intro x hx
    have := (forall₂_get ((mem_indices _ _).1 hx)).1
    rw [hm] at this
    match x, this with
    | [a, b], _ => rfl
  have : ix = bx := by
    rw [hl ix hix, hl bx hb, hb1, e2, ← ha0, e1]
  rw [this]
  exact hbt

/-- C92: with three dimensions, a mask whose true cells at the one time are not a rectangle gives NaN values in between,
and more values than there are true cells. -/
theorem C92_same_refuted : ∃ (data : Arr (Option ℕ)) (mask : Arr Bool), mask.WF ∧ mask.dims = data.dims ∧
    mask.size = data.size ∧ (∀ ix, data.val ix ≠ none) ∧ want data mask = [some 0, some 11] ∧
    reshape data mask = .ok [some 0, none, none, some 11] := by
  refine ⟨⟨["t".toList, "x".toList, "z".toList], [1, 2, 2], fun ix => some (10 * ix.getD 1 0 + ix.getD 2 0)⟩,
    ⟨["t".toList, "x".toList, "z".toList], [1, 2, 2], fun ix => ix.getD 1 0 == ix.getD 2 0⟩, ⟨by decide, rfl⟩, rfl, rfl,
    by simp, by decide, rfl⟩

theorem zipWith_clip {sz ix : List ℕ} {sh : List ℕ} (h : List.Forall₂ (· < ·) ix sh) (k : ℕ) (e : sz = sh.take k) :
    List.zipWith (fun n i => if n = 1 then 0 else i) sz ix = ix.take k := by
  subst e
  induction h generalizing k with
  | nil => simp
  | cons hi _ ih =>
    rename_i i n ix sh _
    cases k with
    | zero => simp
    | succ k =>
      simp only [List.take_succ_cons, List.zipWith_cons_cons, ih k]
      split_ifs with h1
      · have : i = 0 := by omega
        rw [this]
      · rfl

/-- C92, different dimensions: the values wanted are returned if the data have only dimensions of the mask, with the same
sizes, and these come first among the dimensions of the mask.  (With all dimensions in a different order this is the
case.)  What is missing: data without the first dimensions of the mask, see `C92_pad_refuted`. -/
theorem C92_pad_partial (data : Arr (Option α)) (mask : Arr Bool) (hw : mask.WF) (hw' : data.WF)
    (hd : mask.dims ≠ data.dims) (hsub : ∀ d ∈ data.dims, d ∈ mask.dims)
    (hpre : mask.dims.filter (· ∈ data.dims) <+: mask.dims)
    (hs : ∀ d ∈ data.dims, data.sizeOf d = mask.sizeOf d) : reshape data mask = .ok (want data mask) := by
  obtain ⟨rest, hrest⟩ := hpre
  set sh := mask.dims.filter (· ∈ data.dims) with hsh
  have hmem : ∀ d, d ∈ sh ↔ d ∈ data.dims := by
    intro d
    simp only [hsh, List.mem_filter, decide_eq_true_eq]
    exact ⟨fun h => h.2, fun h => ⟨hsub d h, h⟩⟩
  have hnil : data.dims.filter (· ∉ sh) = [] := by
    rw [List.filter_eq_nil_iff]
    intro d hd'
    simp [hmem, hd']
  have hk : sh.length ≤ mask.dims.length := by rw [← hrest]; simp
  have hidx : ∀ d ∈ sh, sh.idxOf d = mask.dims.idxOf d ∧ sh.idxOf d < sh.length := by
    intro d hd'
    refine ⟨?_, List.idxOf_lt_length_iff.2 hd'⟩
    rw [← hrest, List.idxOf_append_of_mem hd']
  have hsize : sh.map data.sizeOf = mask.size.take sh.length := by
    apply List.ext_getElem
    · simp [hw.2]; omega
    · intro j h1 h2
      have hj : j < sh.length := by simpa using h1
      have hjm : j < mask.dims.length := by omega
      have hjs : j < mask.size.length := by rw [hw.2]; exact hjm
      have e : sh[j] = mask.dims[j] := by
        have : mask.dims[j] = (sh ++ rest)[j]'(by rw [hrest]; exact hjm) := by simp only [hrest]
        rw [this, List.getElem_append_left hj]
      rw [List.getElem_map, List.getElem_take, hs _ ((hmem _).1 (List.getElem_mem hj)), e, Arr.sizeOf,
        hw.1.idxOf_getElem j hjm, List.getD_eq_getElem?_getD, List.getElem?_eq_getElem hjs]
      rfl
  have hval : ∀ ix : List ℕ, (transpose data sh).val (ix.take sh.length) =
      data.val (data.dims.map fun d => ix.getD (mask.dims.idxOf d) 0) := by
    intro ix
    simp only [transpose]
    congr 1
    apply List.map_congr_left
    intro d hd'
    obtain ⟨e1, e2⟩ := hidx d ((hmem d).2 hd')
    rw [List.getD_eq_getElem?_getD, List.getElem?_take, if_pos e2, e1, ← List.getD_eq_getElem?_getD]
  rw [reshape, if_neg hd]
  simp only [← hsh, hnil, List.append_nil]
  by_cases hlt : sh.length < mask.dims.length
  · rw [if_pos hlt]
    have hp : pad (transpose data sh) mask.size = .ok ⟨sh, mask.size, fun ix =>
        (transpose data sh).val (List.zipWith (fun n i => if n = 1 then 0 else i) (transpose data sh).size ix)⟩ := by
      rw [pad, if_pos]
      · rfl
      · have e : (transpose data sh).size = mask.size.take sh.length := hsize
        rw [e]
        refine ⟨by simp, ?_⟩
        rw [List.all_eq_true]
        rintro ⟨a, b⟩ hab
        have : ∀ (l : List ℕ) (k : ℕ), ∀ x ∈ List.zip (l.take k) l, x.1 = x.2 := by
          intro l
          induction l with
          | nil => simp
          | cons c l ih =>
            intro k x hx
            cases k with
            | zero => simp at hx
            | succ k =>
              rw [List.take_succ_cons, List.zip_cons_cons, List.mem_cons] at hx
              rcases hx with rfl | hx
              · rfl
              · exact ih k x hx
        have := this _ _ _ hab
        simp only at this
        simp [this]
    simp only [hp, bind, Except.bind, pick, List.take_length, if_true, List.drop_length, indices, List.map_cons,
      List.map_nil, List.append_nil, want, Except.ok.injEq]
    rw [← List.map_eq_flatMap]
    apply List.map_congr_left
    intro ix hix
    rw [zipWith_clip (sz := (transpose data sh).size) ((mem_indices _ _).1 (List.mem_filter.1 hix).1) sh.length hsize, hval]
  · rw [if_neg hlt]
    have hall : sh.length = mask.dims.length := by omega
    have hsz : (transpose data sh).size = mask.size := by
      have e : (transpose data sh).size = mask.size.take sh.length := hsize
      rw [e, hall, ← hw.2, List.take_length]
    simp only [pick, hsz, List.take_length, if_true, List.drop_length, indices, List.map_cons, List.map_nil,
      List.append_nil, want, Except.ok.injEq]
    rw [← List.map_eq_flatMap]
    apply List.map_congr_left
    intro ix hix
    have hl := (forall₂_get ((mem_indices _ _).1 (List.mem_filter.1 hix).1)).1
    have : ix.take sh.length = ix := by rw [hall, ← hw.2, ← hl, List.take_length]
    rw [← hval ix, this]

/-- C92: data that have only the last dimension of the mask are read along the first one: no error is raised if both
dimensions have the same size, and each true cell gets the value of another label. -/
theorem C92_pad_refuted (t x : Name) (htx : t ≠ x) (n : ℕ) (f : ℕ → Option α) (m : List ℕ → Bool) :
    reshape ⟨[x], [n], fun ix => f (ix.getD 0 0)⟩ ⟨[t, x], [n, n], m⟩ =
      .ok (((indices [n, n]).filter m).map fun ix => f (ix.getD 0 0)) ∧
    want ⟨[x], [n], fun ix => f (ix.getD 0 0)⟩ ⟨[t, x], [n, n], m⟩ =
      ((indices [n, n]).filter m).map fun ix => f (ix.getD 1 0) := by
  have e1 : [t, x].filter (· ∈ [x]) = [x] := by simp [htx]
  have e2 : [x].filter (· ∉ [x]) = ([] : List Name) := by simp
  constructor
  · rw [reshape, if_neg (by simp)]
    simp only [e1, e2, List.append_nil, List.length_cons, List.length_nil]
    rw [if_pos (by omega)]
    have es : (transpose ⟨[x], [n], fun ix => f (ix.getD 0 0)⟩ [x]).size = [n] := by simp [transpose, Arr.sizeOf]
    simp only [pad, es, List.length_cons, List.length_nil]
    rw [if_pos (by simp)]
    simp only [bind, Except.bind, pick, List.take_length, if_true, List.drop_length, indices, List.map_cons,
      List.map_nil, List.append_nil]
    rw [Except.ok.injEq, ← List.map_eq_flatMap]
    apply List.map_congr_left
    intro ix hix
    have hix' : ix ∈ indices [n, n] := (List.mem_filter.1 hix).1
    rw [mem_indices] at hix'
    match ix, hix' with
    | [a, b], .cons ha _ =>
      simp only [transpose, List.zipWith_cons_cons, List.map_cons, List.map_nil, List.idxOf_cons_self, List.getD_cons_zero]
      split_ifs with h1
      · rw [show a = 0 by omega]
      · rfl
  · rw [want]
    apply List.map_congr_left
    intro ix _
    have hb : (t == x) = false := by simpa using htx
    simp [List.idxOf_cons, hb]

/-- Times and altitudes, two of each: the values of the altitudes are given to the times. -/
example : reshape ⟨["z".toList], [2], fun ix => some (ix.getD 0 0 + 100)⟩
      ⟨["t".toList, "z".toList], [2, 2], fun ix => ix.getD 0 0 == 0⟩ = .ok [some 100, some 100] ∧
    want ⟨["z".toList], [2], fun ix => some (ix.getD 0 0 + 100)⟩
      ⟨["t".toList, "z".toList], [2, 2], fun ix => ix.getD 0 0 == 0⟩ = [some 100, some 101] := by
  constructor <;> rfl

/-- A case of `C92_pad_partial`: data that depend on the time only. -/
example : reshape ⟨["t".toList], [2], fun ix => some (ix.getD 0 0 + 100)⟩
    ⟨["t".toList, "z".toList], [2, 3], fun ix => ix.getD 0 0 == 1⟩ = .ok [some 101, some 101, some 101] := rfl

/-! ## C93 -/

theorem mesh_fst (a b : List α) (j i : ℕ) (hj : j < b.length) (hi : i < a.length) :
    (meshgrid a b).1[j * a.length + i]? = a[i]? ∧ (meshgrid a b).2[j * a.length + i]? = b[j]? := by
  simp only [meshgrid]
  induction b generalizing j with
  | nil => simp at hj
  | cons y b ih =>
    cases j with
    | zero =>
      simp only [Nat.zero_mul, Nat.zero_add, List.flatMap_cons]
      rw [List.getElem?_append_left hi, List.getElem?_append_left (by simpa using hi)]
      simp [hi]
    | succ j =>
      have h := ih j (by simpa using hj)
      simp only [List.flatMap_cons]
      rw [List.getElem?_append_right (by rw [Nat.succ_mul]; omega),
        List.getElem?_append_right (by rw [List.length_map, Nat.succ_mul]; omega)]
      have e : (j + 1) * a.length + i - a.length = j * a.length + i := by rw [Nat.succ_mul]; omega
      rw [List.length_map, e]
      simpa using h

theorem mesh_length (a b : List α) : (meshgrid a b).1.length = b.length * a.length ∧
    (meshgrid a b).2.length = b.length * a.length := by
  simp [meshgrid, List.length_flatMap]

/-- C93: latitudes that share no dimension with the local times: every cell of the common grid, counted in row-major
order, gets the local time and the latitude of its own labels. -/
theorem C93_lat_lt (lat lt : List α) (latShape ltShape : List ℕ) (h1 : lat.length = latShape.prod)
    (h2 : lt.length = ltShape.prod) (hne : latShape ≠ []) :
    ∃ lat' lt', gridLat lat lt latShape ltShape latShape = .ok (lat', lt') ∧
      lat'.length = (ltShape ++ latShape).prod ∧ lt'.length = (ltShape ++ latShape).prod ∧
      ∀ j i, j < lt.length → i < lat.length →
        lat'[j * lat.length + i]? = lat[i]? ∧ lt'[j * lat.length + i]? = lt[j]? := by
  have hd : latShape ≠ ltShape ++ latShape ∨ ltShape ≠ ltShape ++ latShape := by
    right
    intro h
    exact hne (List.self_eq_append_right.1 h)
  obtain ⟨m1, m2⟩ := mesh_length lat lt
  have hp : (ltShape ++ latShape).prod = lt.length * lat.length := by rw [List.prod_append, h1, h2]
  refine ⟨(meshgrid lat lt).1, (meshgrid lat lt).2, ?_, by rw [m1, hp], by rw [m2, hp], fun j i hj hi => ?_⟩
  · simp only [gridLat]
    rw [if_pos hd]
    simp only [reshapeTo, m1, m2, hp, if_true, bind, Except.bind, pure, Except.pure]
  · exact mesh_fst lat lt j i hj hi

/-- C93: latitudes that share a dimension with the local times and lack another one cannot be handled (more than one
latitude): ValueError. -/
theorem C93_shared_refuted (lat lt : List α) (latShape ltShape : List ℕ) (h1 : 1 < lat.length) (h2 : lt.length = ltShape.prod)
    (h3 : 0 < lt.length) (hne : latShape ≠ ltShape) : gridLat lat lt latShape ltShape [] = .error .valueError := by
  obtain ⟨m1, m2⟩ := mesh_length lat lt
  simp only [gridLat, List.append_nil]
  rw [if_pos (.inl hne)]
  have : ¬ lt.length * lat.length = ltShape.prod := by
    rw [← h2]
    intro h
    have : lt.length * 1 < lt.length * lat.length := Nat.mul_lt_mul_of_pos_left h1 h3
    omega
  simp only [reshapeTo, m1, this, if_false, bind, Except.bind]

/-- C93: heights along a dimension of their own: what the cell with location `i` and height `k` gets.  The right values
are those of `i` and `k`, see `C93_height_partial` and `C93_height_refuted`. -/
theorem gridHeight_cell (lat lt height : List α) (combo : List ℕ) (h1 : lat.length = combo.prod)
    (h2 : lt.length = combo.prod) :
    ∃ lat' lt' height', gridHeight lat lt height combo [height.length] = .ok (lat', lt', height') ∧
      ∀ i k, i < lat.length → k < height.length →
        lat'[i * height.length + k]? = lat[(i * height.length + k) % lat.length]? ∧
        lt'[i * height.length + k]? = lt[(i * height.length + k) % lat.length]? ∧
        height'[i * height.length + k]? = height[(i * height.length + k) / lat.length]? := by
  obtain ⟨m1, m2⟩ := mesh_length lat height
  obtain ⟨n1, -⟩ := mesh_length lt height
  have hp : (combo ++ [height.length]).prod = height.length * lat.length := by
    rw [List.prod_append, h1, List.prod_singleton, Nat.mul_comm]
  have hl : lt.length = lat.length := by rw [h1, h2]
  refine ⟨(meshgrid lat height).1, (meshgrid lt height).1, (meshgrid lat height).2, ?_, fun i k hi hk => ?_⟩
  · simp only [gridHeight, reshapeTo, m1, m2, n1, hp, hl, if_true, bind, Except.bind, pure, Except.pure]
  · set p := i * height.length + k with hp'
    have hpos : 0 < lat.length := by omega
    have hq : p / lat.length < height.length := by
      rw [Nat.div_lt_iff_lt_mul hpos]
      have : (i + 1) * height.length ≤ lat.length * height.length := Nat.mul_le_mul_right _ hi
      rw [Nat.succ_mul] at this
      rw [Nat.mul_comm height.length]
      omega
    have hr : p % lat.length < lat.length := Nat.mod_lt _ hpos
    have e : p / lat.length * lat.length + p % lat.length = p := by rw [Nat.mul_comm]; exact Nat.div_add_mod _ _
    have a := mesh_fst lat height _ _ hq hr
    have b := mesh_fst lt height _ (p % lat.length) hq (by rw [hl]; exact hr)
    rw [hl] at b
    rw [e] at a b
    exact ⟨a.1, b.1, a.2⟩

/-- C93: with one height, or at one location, each cell gets its own latitude, local time and height.  What is missing:
the cases with several of both, see `C93_height_refuted`. -/
theorem C93_height_partial (lat lt height : List α) (combo : List ℕ) (h1 : lat.length = combo.prod)
    (h2 : lt.length = combo.prod) (h : lat.length = 1 ∨ height.length = 1) :
    ∃ lat' lt' height', gridHeight lat lt height combo [height.length] = .ok (lat', lt', height') ∧
      ∀ i k, i < lat.length → k < height.length → lat'[i * height.length + k]? = lat[i]? ∧
        lt'[i * height.length + k]? = lt[i]? ∧ height'[i * height.length + k]? = height[k]? := by
  obtain ⟨a, b, c, e, hc⟩ := gridHeight_cell lat lt height combo h1 h2
  refine ⟨a, b, c, e, fun i k hi hk => ?_⟩
  obtain ⟨x1, x2, x3⟩ := hc i k hi hk
  have : (i * height.length + k) % lat.length = i ∧ (i * height.length + k) / lat.length = k := by
    rcases h with h | h
    · rw [h]
      have : i = 0 := by omega
      subst this
      simp [Nat.mod_one]
    · rw [h]
      have : k = 0 := by omega
      subst this
      simp only [Nat.mul_one, Nat.add_zero]
      exact ⟨Nat.mod_eq_of_lt hi, Nat.div_eq_of_lt hi⟩
  rw [this.1] at x1 x2
  rw [this.2] at x3
  exact ⟨x1, x2, x3⟩

/-- C93: with several locations and several heights the cells are mixed up: the second height of the first location gets
the first height and the second location. -/
theorem C93_height_refuted (lat lt height : List α) (combo : List ℕ) (h1 : lat.length = combo.prod)
    (h2 : lt.length = combo.prod) (h3 : 2 ≤ lat.length) (h4 : 2 ≤ height.length) :
    ∃ lat' lt' height', gridHeight lat lt height combo [height.length] = .ok (lat', lt', height') ∧
      lat'[1]? = lat[1]? ∧ lt'[1]? = lt[1]? ∧ height'[1]? = height[0]? := by
  obtain ⟨a, b, c, e, hc⟩ := gridHeight_cell lat lt height combo h1 h2
  refine ⟨a, b, c, e, ?_⟩
  have := hc 0 1 (by omega) (by omega)
  simpa [Nat.mod_eq_of_lt h3, Nat.div_eq_of_lt h3] using this

/-- Two times and two heights. -/
example : gridHeight [70, 71] [1, 2] [100, 200] [2] [2] = .ok ([70, 71, 70, 71], [1, 2, 1, 2], [100, 100, 200, 200]) := rfl

end Ocb.Grid
