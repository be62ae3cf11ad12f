import Verif.Props.Meta

/-!
# C116, C117: what the metadata of scaled variables and of vectors say
-/

set_option autoImplicit false

namespace Ocb.Meta

open Ocb.Files (Name)
open Ocb.Text (upper)
open Ocb.Ascii (before)
open Ocb.Pysat

theorem before_under {k : Kind} {e : Name} (he : Plain k e) : before ('_' :: bname k) (under e (bname k)) = e := by
  have := before_cut (bname_free k) he.2 []
  rwa [List.append_nil] at this

theorem boundOf_under {k : Kind} {e : Name} (he : Plain k e) : boundOf (under e (bname k)) = bname k := by
  have := boundOf_cut he [] (.inl rfl)
  rwa [List.append_nil] at this

theorem newName_under {k : Kind} {e : Name} (he : Plain k e) :
    newName (under e (bname k)) = shortName k ++ ' ' :: blanks e := by
  have := newName_cut he [] (.inl rfl)
  rwa [List.append_nil] at this

theorem find_none {vects : List (Name × List (Name × Arg))} {e : Name} (h : e ∉ vects.map Prod.fst) :
    vects.find? (fun v => v.1 == e) = none := by
  rw [List.find?_eq_none]
  intro v hv hve
  exact h (List.mem_map.2 ⟨v, hv, by simpa using hve⟩)

theorem find_one {vects : List (Name × List (Name × Arg))} (hn : (vects.map Prod.fst).Nodup)
    {v : Name × List (Name × Arg)} (hv : v ∈ vects) : vects.find? (fun w => w.1 == v.1) = some v := by
  induction vects with
  | nil => simp at hv
  | cons w vects ih =>
    simp only [List.map_cons, List.nodup_cons] at hn
    rcases List.mem_cons.1 hv with rfl | hv
    · rw [List.find?_cons_of_pos (by simp)]
    · rw [List.find?_cons_of_neg, ih hn.2 hv]
      intro h
      simp only [beq_iff_eq] at h
      exact hn.1 (h ▸ List.mem_map_of_mem hv)

/-! ## C116 -/

/-- C116: a scaled variable (or latitude or local time) whose name does not look like that of a boundary variable and that
has metadata: the new column has its units, range and other labels; its name and description are those of the variable
after the name of the boundary, the fill value is NaN and the notes tell the boundary.
What is missing: names that look like those of boundary variables, see `C116_source_refuted` and `C116_boundary_refuted`,
and columns that had metadata before, see C115. -/
theorem C116_inherit_partial (dflt : Info) (user : ℕ → Name) (k : Kind) (s : Source) (n : Names) (p : Plan) (m m' : Meta)
    (h : describe dflt user (bname k) s n p m = .ok m') (e : Name) (he : Plain k e)
    (hm : e ∈ [n.mlat, n.mlt, "r_corr".toList] ++ p.evars ++ p.curls) (hv : e ∉ p.vects.map Prod.fst) (i : Info)
    (hi : m e = some i) (ho : m (under e (bname k)) = none) :
    ∃ j, m' (under e (bname k)) = some j ∧ j.units = i.units ∧ j.minVal = i.minVal ∧ j.maxVal = i.maxVal ∧
      j.other = i.other ∧ j.fillVal = .nan ∧ j.name = shortName k ++ ' ' :: i.name ∧
      j.desc = longName k ++ i.desc ∧ j.notes = notesOf s := by
  obtain ⟨m1, m2, a1, a2, a3, a4⟩ := metaAll_moment h (scaled_made k n p e hm hv) ho
  rw [metaOne, before_under he, find_none hv, Option.map_none, Except.ok.injEq] at a1
  rw [a3, ← a1, addMeta_new a2, a4 e (.inr (by rw [hi]; rfl)), hi]
  refine ⟨_, rfl, rfl, rfl, rfl, rfl, rfl, ?_, ?_, rfl⟩
  · simp only [newInfo, Bool.false_eq_true, if_false, boundOf_under he, upper_bname]
  · simp only [newInfo, Bool.false_eq_true, if_false, boundDesc, boundOf_under he, descOf_bname, Option.getD_some]

theorem replaceAny_head (a b e : Name) (ha : a ≠ []) (h : ¬ a <:+: e) : replaceAny a b (a ++ e) = b ++ e := by
  rw [replaceAny, if_neg ha, replace]
  obtain ⟨c, cs, rfl⟩ := List.exists_cons_of_ne_nil ha
  have h1 : (c :: cs ++ e).length = (cs.length + e.length) + 1 := by simp +arith
  rw [h1, List.cons_append, replaceAux, if_pos (by rw [List.isPrefixOf_iff_prefix]; exact ⟨e, rfl⟩)]
  have h2 : (c :: (cs ++ e)).drop (c :: cs).length = e := by
    rw [← List.cons_append, List.drop_left]
  rw [h2, Nat.add_comm]
  have h3 := replaceAux_skip (c :: cs) b e [] cs.length (by
    intro x y z hx hp
    rw [List.append_nil] at hp
    exact h (hp.isInfix.trans (by rw [hx]; exact (List.suffix_append x (y :: z)).isInfix)))
  rw [List.append_nil] at h3
  rw [h3]
  cases hl : cs.length with
  | zero => simp [replaceAux]
  | succ n => simp [replaceAux]

/-- C116: a variable without metadata (such as the radius correction): the new column is named after the boundary and the
variable, in short in the name and in full in the description, and has no limits. -/
theorem C116_unknown_partial (dflt : Info) (user : ℕ → Name) (k : Kind) (s : Source) (n : Names) (p : Plan) (m m' : Meta)
    (h : describe dflt user (bname k) s n p m = .ok m') (e : Name) (he : Plain k e)
    (hm : e ∈ [n.mlat, n.mlt, "r_corr".toList] ++ p.evars ++ p.curls) (hv : e ∉ p.vects.map Prod.fst)
    (hi : m e = none) (hoe : e ∉ outKeys (bname k) n p) (ho : m (under e (bname k)) = none)
    (hs : ¬ shortName k <:+: ' ' :: blanks e) :
    ∃ j, m' (under e (bname k)) = some j ∧ j.minVal = .ninf ∧ j.maxVal = .pinf ∧ j.fillVal = .nan ∧
      j.name = shortName k ++ ' ' :: blanks e ∧ j.desc = longName k ++ ' ' :: blanks e ∧ j.notes = notesOf s := by
  obtain ⟨m1, m2, a1, a2, a3, a4⟩ := metaAll_moment h (scaled_made k n p e hm hv) ho
  rw [metaOne, before_under he, find_none hv, Option.map_none, Except.ok.injEq] at a1
  rw [a3, ← a1, addMeta_new a2, a4 e (.inl hoe), hi]
  refine ⟨_, rfl, rfl, rfl, rfl, newName_under he, ?_, rfl⟩
  simp only [newInfo, boundDesc, boundOf_under he, descOf_bname, Option.getD_some, newName_under he, upper_bname]
  exact replaceAny_head _ _ _ (by cases k <;> decide) hs

/-- The metadata of a variable with these units. -/
def withUnits (u : Name) : Info := { emptyInfo with units := u, name := u, desc := u }

/-- The names of a call for one scaled variable. -/
def oneNames (e : Name) : Names := ⟨"MLAT".toList, "MLT".toList, [e], [], []⟩

/-- The plan of these names. -/
def onePlan (e : Name) : Plan := ⟨[e], [], [], ["MLAT".toList, "MLT".toList, e]⟩

/-- C116: the name of a variable contains the name of the boundary after an underscore: the new column gets the metadata of
another variable, here those of `v` in place of those of `v_ocb_err`. -/
theorem C116_source_refuted :
    ∃ m m' j, plan ["MLAT".toList, "MLT".toList, "v".toList, "v_ocb_err".toList] (oneNames "v_ocb_err".toList) =
        .ok (onePlan "v_ocb_err".toList) ∧
      describe emptyInfo (fun _ => []) (bname .ocb) imageSrc (oneNames "v_ocb_err".toList) (onePlan "v_ocb_err".toList) m =
        .ok m' ∧
      m "v".toList = some (withUnits "m/s".toList) ∧ m "v_ocb_err".toList = some (withUnits "%".toList) ∧
      m' "v_ocb_err_ocb".toList = some j ∧ j.units = "m/s".toList := by
  let m : Meta := fun k => if k = "v".toList then some (withUnits "m/s".toList)
    else if k = "v_ocb_err".toList then some (withUnits "%".toList) else none
  obtain ⟨m', h⟩ := metaAll_ok (dflt := emptyInfo) (user := fun _ => []) (b := bname .ocb) (s := imageSrc)
    (vects := []) (os := outKeys (bname .ocb) (oneNames "v_ocb_err".toList) (onePlan "v_ocb_err".toList))
    (fun v hv => by simp at hv) m
  obtain ⟨m1, m2, a1, a2, a3, a4⟩ := metaAll_moment h (k := "v_ocb_err_ocb".toList) (by decide) (by
    simp only [m]; rw [if_neg (by decide), if_neg (by decide)])
  have hb : before ('_' :: bname .ocb) "v_ocb_err_ocb".toList = "v".toList := by decide
  rw [metaOne, hb, find_none (by simp), Option.map_none, Except.ok.injEq] at a1
  have hv : m "v".toList = some (withUnits "m/s".toList) := rfl
  rw [← a1, addMeta_new a2, a4 "v".toList (.inr (by rw [hv]; rfl)), hv] at a3
  refine ⟨m, m', _, by decide, h, hv, ?_, a3, rfl⟩
  rfl

/-- C116: the name of a variable has the name of another boundary as one of its parts: the new column is said to be relative
to that boundary, whatever boundary is used. -/
theorem C116_boundary_refuted :
    ∃ m m' j, plan ["MLAT".toList, "MLT".toList, "eab_flux".toList] (oneNames "eab_flux".toList) =
        .ok (onePlan "eab_flux".toList) ∧
      describe emptyInfo (fun _ => []) (bname .ocb) imageSrc (oneNames "eab_flux".toList) (onePlan "eab_flux".toList) m =
        .ok m' ∧
      m "eab_flux".toList = some (withUnits "W".toList) ∧ m' "eab_flux_ocb".toList = some j ∧
      j.name = "EAB W".toList ∧ j.desc = "Equatorward Auroral BoundaryW".toList := by
  let m : Meta := fun k => if k = "eab_flux".toList then some (withUnits "W".toList) else none
  obtain ⟨m', h⟩ := metaAll_ok (dflt := emptyInfo) (user := fun _ => []) (b := bname .ocb) (s := imageSrc)
    (vects := []) (os := outKeys (bname .ocb) (oneNames "eab_flux".toList) (onePlan "eab_flux".toList))
    (fun v hv => by simp at hv) m
  obtain ⟨m1, m2, a1, a2, a3, a4⟩ := metaAll_moment h (k := "eab_flux_ocb".toList) (by decide) (by
    simp only [m]; rw [if_neg (by decide)])
  have hb : before ('_' :: bname .ocb) "eab_flux_ocb".toList = "eab_flux".toList := by decide
  rw [metaOne, hb, find_none (by simp), Option.map_none, Except.ok.injEq] at a1
  have hv : m "eab_flux".toList = some (withUnits "W".toList) := rfl
  rw [← a1, addMeta_new a2, a4 "eab_flux".toList (.inr (by rw [hv]; rfl)), hv] at a3
  refine ⟨m, m', _, by decide, h, hv, a3, ?_, ?_⟩ <;> decide

/-- A call to which `C116_inherit_partial` applies: the flow speed `v` relative to the open-closed boundary. -/
example : ∃ m m' j, plan ["MLAT".toList, "MLT".toList, "v".toList] twoNames = .ok twoPlan ∧
    describe emptyInfo (fun _ => []) (bname .ocb) imageSrc twoNames twoPlan m = .ok m' ∧
    m "v".toList = some (withUnits "m/s".toList) ∧ m' "v_ocb".toList = some j ∧ j.units = "m/s".toList ∧
    j.name = "OCB m/s".toList := by
  let m : Meta := fun k => if k = "v".toList then some (withUnits "m/s".toList) else none
  obtain ⟨m', h⟩ := metaAll_ok (dflt := emptyInfo) (user := fun _ => []) (b := bname .ocb) (s := imageSrc)
    (vects := []) (os := outKeys (bname .ocb) twoNames twoPlan) (fun v hv => by simp at hv) m
  have hv : m "v".toList = some (withUnits "m/s".toList) := rfl
  obtain ⟨j, j1, j2, -, -, -, -, j3, -⟩ := C116_inherit_partial _ _ .ocb _ twoNames twoPlan m m' h "v".toList
    ⟨by decide, by decide⟩ (by decide) (by decide) _ hv (by simp only [m]; rw [if_neg (by decide)])
  exact ⟨m, m', j, by decide, h, hv, j1, j2, j3⟩

/-! ## C117 -/

/-- The word for a scaling function in the notes: `__name__` of the functions of `ocb_scaling` (`ocb_scaling.py` 1112 and
1144) and of those of the user, and `None` if there is none. -/
inductive Called (user : ℕ → Name) : Fn → Name → Prop
  | evar : Called user .evar "normal_evar".toList
  | curl : Called user .curl "normal_curl_evar".toList
  | user (n : ℕ) : Called user (.user n) (user n)
  | none : Called user .none "None".toList

theorem scaleName_called {user : ℕ → Name} {entries : List (Name × Arg)} {f : Name} (h : scaleName user entries = .ok f) :
    ∃ g, ("scale_func".toList, .fn g) ∈ entries ∧ Called user g f := by
  unfold scaleName at h
  cases hk : entries.find? (fun k => k.1 == "scale_func".toList) with
  | none => rw [hk] at h; simp at h
  | some e =>
    obtain ⟨k, a⟩ := e
    have hk1 : k = "scale_func".toList := by simpa using List.find?_some hk
    rw [hk] at h
    cases a with
    | text t => simp at h
    | fn g =>
      simp only [Option.map_some, Except.ok.injEq] at h
      refine ⟨g, hk1 ▸ List.mem_of_find?_eq_some hk, ?_⟩
      subst h
      cases g with
      | evar => exact .evar
      | curl => exact .curl
      | user n => exact .user n
      | none => exact .none

/-- The description of a column of a vector whose name has the boundary in it. -/
theorem vector_info (dflt : Info) (user : ℕ → Name) (k : Kind) (s : Source) (n : Names) (p : Plan) (m m' : Meta)
    (h : describe dflt user (bname k) s n p m = .ok m') (hn : (p.vects.map Prod.fst).Nodup)
    (v : Name × List (Name × Arg)) (hv : v ∈ p.vects) (hc : Clean v.1) (he : Plain k v.1) (t : Name)
    (ht : FirstComp v.2 t) (i : Info) (hi : m t = some i) (o a : Name) (hoa : o = v.1 ++ '_' :: (bname k ++ '_' :: a))
    (ho : o ∈ columns k v.1) (hm : m o = none) :
    ∃ j g f, m' o = some j ∧ j.units = i.units ∧ j.minVal = i.minVal ∧ j.maxVal = i.maxVal ∧ j.fillVal = .nan ∧
      j.name = shortName k ++ ' ' :: blanks v.1 ∧ j.desc = longName k ++ i.desc ∧
      ("scale_func".toList, .fn g) ∈ v.2 ∧ Called user g f ∧ j.notes = notesOf s ++ " and was scaled using ".toList ++ f := by
  obtain ⟨m1, m2, a1, a2, a3, a4⟩ := metaAll_moment h (vector_made k n p hv hc ho) hm
  have hb : before ('_' :: bname k) o = v.1 := by rw [hoa]; exact before_cut (bname_free k) he.2 _
  have hbo : boundOf o = bname k := by rw [hoa]; exact boundOf_cut he _ (.inr ⟨_, rfl⟩)
  have hno : newName o = shortName k ++ ' ' :: blanks v.1 := by rw [hoa]; exact newName_cut he _ (.inr ⟨_, rfl⟩)
  rw [metaOne, hb, find_one hn hv, Option.map_some] at a1
  simp only [bind, Except.bind, pure, Except.pure, firstComp_some ht] at a1
  cases hf : scaleName user v.2 with
  | error e => rw [hf] at a1; simp at a1
  | ok f =>
    rw [hf] at a1
    simp only [Except.ok.injEq] at a1
    rw [a3, ← a1, addMeta_new a2, a4 t (.inr (by rw [hi]; rfl)), hi]
    obtain ⟨g, g1, g2⟩ := scaleName_called hf
    refine ⟨_, g, f, rfl, rfl, rfl, rfl, rfl, hno, ?_, g1, g2, rfl⟩
    simp only [newInfo, if_true, boundDesc, hbo, descOf_bname, Option.getD_some]

/-- C117: the columns with the components and the magnitude of a vector have the units and range of the first component
that was given, are named after the boundary and the vector, and the notes tell the boundary and the scaling function.
What is missing: the columns with the radii, see `C117_units_refuted` and `C117_radius_refuted`; the four columns have the
same name and description, which is proved here too. -/
theorem C117_components_partial (dflt : Info) (user : ℕ → Name) (k : Kind) (s : Source) (n : Names) (p : Plan)
    (m m' : Meta) (h : describe dflt user (bname k) s n p m = .ok m') (hn : (p.vects.map Prod.fst).Nodup)
    (v : Name × List (Name × Arg)) (hv : v ∈ p.vects) (hc : Clean v.1) (he : Plain k v.1) (t : Name)
    (ht : FirstComp v.2 t) (i : Info) (hi : m t = some i) (a : Name)
    (ha : a ∈ ["n".toList, "e".toList, "z".toList, "mag".toList])
    (hm : m (v.1 ++ '_' :: (bname k ++ '_' :: a)) = none) :
    ∃ j g f, m' (v.1 ++ '_' :: (bname k ++ '_' :: a)) = some j ∧ j.units = i.units ∧ j.minVal = i.minVal ∧
      j.maxVal = i.maxVal ∧ j.fillVal = .nan ∧ j.name = shortName k ++ ' ' :: blanks v.1 ∧
      j.desc = longName k ++ i.desc ∧ ("scale_func".toList, .fn g) ∈ v.2 ∧ Called user g f ∧
      j.notes = notesOf s ++ " and was scaled using ".toList ++ f := by
  refine vector_info dflt user k s n p m m' h hn v hv hc he t ht i hi _ a rfl ?_ hm
  simp only [List.mem_cons, List.not_mem_nil, or_false] at ha
  rcases ha with rfl | rfl | rfl | rfl <;> cases k <;> simp [columns, bname]

/-- The entries of a drift vector. -/
def driftEntries : List (Name × Arg) :=
  [("vect_n".toList, .text "vn".toList), ("vect_e".toList, .text "ve".toList), ("scale_func".toList, .fn .evar)]

/-- The names of a call for this vector. -/
def driftNames : Names :=
  ⟨"MLAT".toList, "MLT".toList, ["ion_drift".toList], [],
    [("ion_drift".toList, [("vect_n".toList, .text "vn".toList), ("vect_e".toList, .text "ve".toList)])]⟩

/-- The plan of these names. -/
def driftPlan : Plan :=
  ⟨[], [], [("ion_drift".toList, driftEntries)], ["MLAT".toList, "MLT".toList, "vn".toList, "ve".toList]⟩

theorem drift_plan : plan ["MLAT".toList, "MLT".toList, "vn".toList, "ve".toList] driftNames = .ok driftPlan := by decide

theorem drift_first : FirstComp driftEntries "vn".toList :=
  ⟨[], "vect_n".toList, [("vect_e".toList, .text "ve".toList), ("scale_func".toList, .fn .evar)], rfl, .inl rfl,
    fun x hx => by simp at hx⟩

/-- The metadata before the call: the northward drift is in metres per second. -/
def driftMeta : Meta := fun k => if k = "vn".toList then some (withUnits "m/s".toList) else none

theorem drift_ok (k : Kind) : ∃ m', describe emptyInfo (fun _ => []) (bname k) imageSrc driftNames driftPlan driftMeta = .ok m' := by
  refine metaAll_ok (fun v hv => ?_) _
  simp only [driftPlan, List.mem_singleton] at hv
  subst hv
  exact ⟨⟨_, rfl⟩, _, firstComp_some drift_first⟩

/-- C117: with an equatorward boundary, the radius of the circle (in degrees) has the units of the vector, and the name and
description of a component. -/
theorem C117_units_refuted :
    ∃ m' j, plan ["MLAT".toList, "MLT".toList, "vn".toList, "ve".toList] driftNames = .ok driftPlan ∧
      describe emptyInfo (fun _ => []) (bname .eab) imageSrc driftNames driftPlan driftMeta = .ok m' ∧
      m' "ion_drift_eab_scaled_r".toList = some j ∧ j.units = "m/s".toList ∧ j.name = "EAB ion drift".toList := by
  obtain ⟨m', h⟩ := drift_ok .eab
  obtain ⟨j, g, f, h1, h2, -, -, -, h3, -⟩ := vector_info _ _ .eab _ driftNames driftPlan driftMeta m' h (by decide)
    ("ion_drift".toList, driftEntries) (by decide) (by unfold Clean; decide) ⟨by decide, by decide⟩ "vn".toList drift_first
    (withUnits "m/s".toList) (by rw [driftMeta, if_pos rfl]) "ion_drift_eab_scaled_r".toList "scaled_r".toList (by decide)
    (by decide) (by rw [driftMeta, if_neg (by decide)])
  exact ⟨m', j, drift_plan, h, h1, h2, by rw [h3]; decide⟩

/-- C117: with an open-closed boundary, the radius column of the vector `ion_drift` is described by the one word `ion`, the
first part of the name of the vector: neither the boundary nor the quantity is named. -/
theorem C117_radius_refuted :
    ∃ m' j, plan ["MLAT".toList, "MLT".toList, "vn".toList, "ve".toList] driftNames = .ok driftPlan ∧
      describe emptyInfo (fun _ => []) (bname .ocb) imageSrc driftNames driftPlan driftMeta = .ok m' ∧
      m' "ion_drift_scaled_r".toList = some j ∧ j.name = "ion".toList ∧ j.desc = "ion".toList := by
  obtain ⟨m', h⟩ := drift_ok .ocb
  obtain ⟨m1, m2, a1, a2, a3, a4⟩ := metaAll_moment h (k := "ion_drift_scaled_r".toList) (by decide)
    (by rw [driftMeta, if_neg (by decide)])
  have hb : before ('_' :: bname .ocb) "ion_drift_scaled_r".toList = "ion_drift_scaled_r".toList := by decide
  rw [metaOne, hb, find_none (by decide), Option.map_none, Except.ok.injEq] at a1
  rw [← a1, addMeta_new a2, a2] at a3
  refine ⟨m', _, drift_plan, h, a3, ?_, ?_⟩ <;> decide

/-- A call to which `C117_components_partial` applies: the eastward component of the drift. -/
example : ∃ m' j, describe emptyInfo (fun _ => []) (bname .ocb) imageSrc driftNames driftPlan driftMeta = .ok m' ∧
    m' "ion_drift_ocb_e".toList = some j ∧ j.units = "m/s".toList ∧ j.name = "OCB ion drift".toList := by
  obtain ⟨m', h⟩ := drift_ok .ocb
  obtain ⟨j, g, f, h1, h2, -, -, -, h3, -⟩ := C117_components_partial _ _ .ocb _ driftNames driftPlan driftMeta m' h (by decide)
    ("ion_drift".toList, driftEntries) (by decide) (by unfold Clean; decide) ⟨by decide, by decide⟩ "vn".toList drift_first
    (withUnits "m/s".toList) (by rw [driftMeta, if_pos rfl]) "e".toList (by decide)
    (by rw [driftMeta, if_neg (by decide)])
  exact ⟨m', j, h, h1, h2, by rw [h3]; decide⟩

end Ocb.Meta
