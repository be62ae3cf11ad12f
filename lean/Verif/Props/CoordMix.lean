import Verif.Model.CoordMix
import Verif.Props.DualOther

/-!
# C177-C179: the coordinate methods called with single values and arrays mixed
-/

set_option autoImplicit false

namespace Ocb.Scale

open Ocb.Time Ocb.Coord Ocb.Vec

/-- An argument stands for a list of `n` values: it is the array of these, or a single value that is meant `n` times. -/
def Stands {α : Type} (n : ℕ) (x : Arr α) (l : List α) : Prop :=
  l.length = n ∧ (x = .many l ∨ ∃ a, x = .one a ∧ l = List.replicate n a)

theorem Stands.map {α β : Type} {n : ℕ} {x : Arr α} {l : List α} (h : Stands n x l) (g : α → β) : Stands n (x.map g) (l.map g) := by
  obtain ⟨h1, rfl | ⟨a, rfl, rfl⟩⟩ := h
  · exact ⟨by simpa using h1, .inl rfl⟩
  · exact ⟨by simp, .inr ⟨g a, rfl, by simp⟩⟩

theorem Stands.many {α : Type} {n : ℕ} {x : Arr α} {l : List α} (h : Stands n x l) (hs : x.shape = some n) : x = .many l := by
  obtain ⟨h1, rfl | ⟨a, rfl, rfl⟩⟩ := h
  · rfl
  · cases hs

theorem Stands.shape {α : Type} {n : ℕ} {x : Arr α} {l : List α} (h : Stands n x l) : x.shape = none ∨ x.shape = some n := by
  obtain ⟨h1, rfl | ⟨a, rfl, rfl⟩⟩ := h
  · right; rw [← h1]; rfl
  · left; rfl

theorem Stands.zip {α β : Type} {n : ℕ} {x : Arr α} {l : List α} {y : Arr β} {m : List β} (h : Stands n x l) (h' : Stands n y m) :
    ∃ z, x.zip y = .ok z ∧ Stands n z (l.zip m) ∧ (x.shape = some n ∨ y.shape = some n → z.shape = some n) := by
  obtain ⟨h1, rfl | ⟨a, rfl, rfl⟩⟩ := h <;> obtain ⟨h2, rfl | ⟨b, rfl, rfl⟩⟩ := h'
  · have e : l.length = m.length := by rw [h1, h2]
    refine ⟨.many (l.zip m), by simp [Arr.zip, e], ⟨by simp [h1, h2], .inl rfl⟩, fun _ => by simp [Arr.shape, h1, h2]⟩
  · have e : l.zip (List.replicate n b) = l.map fun a => (a, b) := by
      rw [← h1]
      clear h1 h2
      induction l with
      | nil => rfl
      | cons a t ih => simp only [List.length_cons, List.replicate_succ, List.zip_cons_cons, List.map_cons, ih]
    refine ⟨.many (l.map fun a => (a, b)), rfl, ⟨by simp [h1], .inl (by rw [e])⟩, fun _ => by simp [Arr.shape, h1]⟩
  · have e : (List.replicate n a).zip m = m.map fun b => (a, b) := by
      rw [← h2]
      clear h1 h2
      induction m with
      | nil => rfl
      | cons b t ih => simp only [List.length_cons, List.replicate_succ, List.zip_cons_cons, List.map_cons, ih]
    refine ⟨.many (m.map fun b => (a, b)), rfl, ⟨by simp [h2], .inl (by rw [e])⟩, fun _ => by simp [Arr.shape, h2]⟩
  · refine ⟨.one (a, b), rfl, ⟨by simp, .inr ⟨_, rfl, by simp⟩⟩, fun h => ?_⟩
    rcases h with h | h <;> cases h

theorem arr_mapE {α β : Type} {f : α → Except PyErr β} {g : α → β} (h : ∀ a, f a = .ok (g a)) (x : Arr α) :
    x.mapE f = .ok (x.map g) := by
  cases x with
  | one a => simp only [Arr.mapE, h, Except.map, Arr.map]
  | many l =>
    simp only [Arr.mapE, Arr.map]
    rw [mapE_map (g := g) (fun a _ => h a)]
    rfl

theorem shape_map {α β : Type} (g : α → β) (x : Arr α) : (x.map g).shape = x.shape := by
  cases x <;> simp [Arr.map, Arr.shape]

/-- The largest of shapes that are `()` or `(n,)`. -/
theorem maxShape_of {n : ℕ} (l : List Shape) (h : ∀ s ∈ l, s = none ∨ s = some n) :
    (some n ∈ l → maxShape l = some n) ∧ (some n ∉ l → maxShape l = none) := by
  have key : ∀ (l : List Shape) (a : Shape), (a = none ∨ a = some n) → (∀ s ∈ l, s = none ∨ s = some n) →
      l.foldl (fun a b => if shapeLe a b then b else a) a = if a = some n ∨ some n ∈ l then some n else none := by
    intro l
    induction l with
    | nil => intro a ha _; rcases ha with rfl | rfl <;> simp
    | cons b t ih =>
      intro a ha hl
      have hb := hl b (by simp)
      rw [List.foldl_cons, ih _ ?_ fun s hs => hl s (by simp [hs])]
      · rcases ha with rfl | rfl <;> rcases hb with rfl | rfl <;> simp [shapeLe]
      · split
        · exact hb
        · exact ha
  have := key l none (.inl rfl) h
  unfold maxShape
  rw [this]
  constructor <;> intro h <;> simp [h]

theorem normalEntry_tot (B : Rec) : ∃ g : F × F → F × F × F, (∀ p, normalEntry B p.1 p.2 = .ok (g p)) ∧
    ∀ p, (g p).2.2 = p.2.map B.rf := by
  have : ∀ p : F × F, ∃ o : F × F × F, normalEntry B p.1 p.2 = .ok o ∧ o.2.2 = p.2.map B.rf := by
    rintro ⟨a, b⟩
    cases b with
    | none => cases a <;> exact ⟨_, rfl, rfl⟩
    | some b =>
      cases a with
      | none => exact ⟨_, rfl, rfl⟩
      | some a =>
        refine ⟨_, by simp only [normalEntry, normalPt_ok, bind, Except.bind]; rfl, rfl⟩
  choose g hg using this
  exact ⟨g, fun p => (hg p).1, fun p => (hg p).2⟩

theorem revertEntry_tot (B : Rec) : ∃ g : F × F × F → F × F, ∀ p, revertEntry B p.1 p.2.1 p.2.2 = .ok (g p) := by
  have : ∀ p : F × F × F, ∃ o : F × F, revertEntry B p.1 p.2.1 p.2.2 = .ok o := by
    rintro ⟨a, b, c⟩
    cases a with
    | none => exact ⟨_, rfl⟩
    | some a =>
      cases b with
      | none => exact ⟨_, rfl⟩
      | some b =>
        cases c with
        | none => exact ⟨_, rfl⟩
        | some c => exact ⟨_, by simp only [revertEntry, revertPt_ok, bind, Except.bind]; rfl⟩
  choose g hg using this
  exact ⟨g, hg⟩

theorem Stands.all {n : ℕ} {x : Arr F} {l : List F} (h : Stands n x l) (hn : n ≠ 0) (f : F → Bool) :
    x.entries.all f = l.all f ∧ x.entries.any f = l.any f := by
  obtain ⟨h1, rfl | ⟨a, rfl, rfl⟩⟩ := h
  · exact ⟨rfl, rfl⟩
  · rw [List.all_replicate, List.any_replicate, if_neg hn, if_neg hn]
    simp [Arr.entries]

theorem map_const_rep {α β : Type} (l : List α) (b : β) : l.map (fun _ => b) = List.replicate l.length b := by
  simp

/-- C177, as far as it holds for `normal_coord`: a mix of single values and arrays with at least one array gives arrays with
the coordinates of the call in which each single value is written out; the radius corrections of that call are given as an
array or as a single value that stands for them.  Missing: the shape of the radius corrections, see `C177_corr_refuted`;
arrays only among the heights, see `C177_height_refuted`. -/
theorem C177_normal_partial (rec : Option Rec) (n : ℕ) (lat lt : Arr F) (la lm : List F) (hla : Stands n lat la)
    (hlm : Stands n lt lm) (harr : lat.shape = some n ∨ lt.shape = some n) (height : Shape) (hh : height = none ∨ height = some n) :
    ∃ out lats c, normalArr rec (la.zip lm) = .ok (out, lats) ∧
      normalMix rec lat lt height = .ok (.many (out.map (·.1)), .many (out.map (·.2.1)), c) ∧ Stands n c (out.map (·.2.2)) := by
  have hlen : (la.zip lm).length = n := by simp [hla.1, hlm.1]
  have hm : maxShape [lat.shape, lt.shape, height] = some n := by
    refine (maxShape_of _ ?_).1 ?_
    · simp only [List.mem_cons, List.not_mem_nil, or_false]
      rintro s (rfl | rfl | rfl)
      · exact hla.shape
      · exact hlm.shape
      · exact hh
    · simp only [List.mem_cons, List.not_mem_nil, or_false]
      rcases harr with h | h
      · exact .inl h.symm
      · exact .inr (.inl h.symm)
  have hmapc : ∀ {γ : Type} (b : γ), (la.zip lm).map (fun _ => b) = List.replicate n b := by
    intro γ b; rw [map_const_rep, hlen]
  have hnan : ∀ (lats : List F), ∃ out lats' c, (Except.ok ((la.zip lm).map (fun _ => ((none, none, none) : F × F × F)), lats) :
      Except PyErr _) = .ok (out, lats') ∧ (Except.ok (Arr.full (some n) (none : F), Arr.full (some n) (none : F),
        Arr.full (some n) (none : F)) : Except PyErr _) = .ok (.many (out.map (·.1)), .many (out.map (·.2.1)), c) ∧
      Stands n c (out.map (·.2.2)) := by
    intro lats
    refine ⟨_, _, .many (List.replicate n none), rfl, ?_, ?_⟩
    · simp [Arr.full, hla.1, hlm.1]
    · exact ⟨by simp [hla.1, hlm.1], .inl (by simp [hla.1, hlm.1])⟩
  unfold normalArr normalMix
  rw [hm]
  cases rec with
  | none => exact hnan _
  | some B =>
    obtain ⟨g, hg, hg2⟩ := normalEntry_tot B
    have hfst : (la.zip lm).map (·.1) = la := by
      have := List.map_fst_zip (l₁ := la) (l₂ := lm) (by rw [hla.1, hlm.1])
      exact this
    have hsnd : (la.zip lm).map (·.2) = lm := by
      have := List.map_snd_zip (l₁ := la) (l₂ := lm) (by rw [hla.1, hlm.1])
      exact this
    obtain ⟨z, z1, z2, z3⟩ := (hla.map fun l => if wrongHem B.hem l then none else l).zip hlm
    have zm := z2.many (z3 (by rwa [shape_map]))
    have hgood : ∀ lats : List F, ∃ out lats' c,
        (do
          let out ← mapE (fun p : F × F => normalEntry B (if wrongHem B.hem p.1 then none else p.1) p.2) (la.zip lm)
          pure (out, lats) : Except PyErr _) = .ok (out, lats') ∧
        (do
          let pts ← (lat.map fun l => if wrongHem B.hem l then none else l).zip lt
          let out ← pts.mapE fun p => normalEntry B p.1 p.2
          pure (out.map (·.1), out.map (·.2.1), lt.map fun m => m.map B.rf) : Except PyErr (Arr F × Arr F × Arr F)) =
            .ok (.many (out.map (·.1)), .many (out.map (·.2.1)), c) ∧ Stands n c (out.map (·.2.2)) := by
      intro lats
      rw [z1]
      have e1 : mapE (fun p : F × F => normalEntry B (if wrongHem B.hem p.1 then none else p.1) p.2) (la.zip lm) =
          .ok ((la.zip lm).map fun p => g (if wrongHem B.hem p.1 then none else p.1, p.2)) :=
        mapE_map fun p _ => hg (if wrongHem B.hem p.1 then none else p.1, p.2)
      have e2 : (la.map fun l => if wrongHem B.hem l then none else l).zip lm =
          (la.zip lm).map fun p => ((if wrongHem B.hem p.1 then none else p.1 : F), p.2) := by
        rw [List.zip_map_left]
        rfl
      simp only [bind, Except.bind, e1, arr_mapE hg, pure, Except.pure]
      refine ⟨_, _, _, rfl, by rw [zm, e2]; simp only [Arr.map, List.map_map]; rfl, ?_⟩
      have := hlm.map fun m : F => m.map B.rf
      rw [List.map_map]
      have e3 : (la.zip lm).map ((fun o : F × F × F => o.2.2) ∘ fun p => g (if wrongHem B.hem p.1 then none else p.1, p.2)) =
          lm.map fun m : F => m.map B.rf := by
        conv_rhs => rw [← hsnd]
        rw [List.map_map]
        refine List.map_congr_left fun p _ => ?_
        simp [hg2]
      rw [e3]
      exact this
    by_cases hn : n = 0
    · subst hn
      have e0 : la = [] := List.length_eq_zero_iff.1 hla.1
      have e0' : lm = [] := List.length_eq_zero_iff.1 hlm.1
      by_cases hc : (lat.entries.any (wrongHem B.hem) && lat.entries.all (wrongHem B.hem)) = true
      · simp only [hc, if_true]
        subst e0 e0'
        exact ⟨[], [], .many [], rfl, rfl, ⟨rfl, .inl rfl⟩⟩
      · simp only [hc]
        obtain ⟨out, lats', c, h1, h2, h3⟩ := hgood (la.map fun l => if wrongHem B.hem l then none else l)
        refine ⟨out, lats', c, ?_, h2, h3⟩
        rw [← h1, hfst, e0]
        rfl
    · obtain ⟨h1, h2⟩ := hla.all hn (wrongHem B.hem)
      simp only [h1, h2, hfst]
      by_cases hc : (la.any (wrongHem B.hem) && la.all (wrongHem B.hem)) = true
      · simp only [hc, if_true]
        exact hnan _
      · simp only [hc]
        exact hgood _

/-- C177: single values throughout give single values. -/
theorem C177_single (rec : Option Rec) (a m c : F) :
    (∃ o lats, normalArr rec [(a, m)] = .ok ([o], lats) ∧ normalMix rec (.one a) (.one m) none = .ok (.one o.1, .one o.2.1, .one o.2.2)) ∧
    ∃ o, revertArr rec [(a, m, c)] = .ok [o] ∧ revertMix rec (.one a) (.one m) (.one c) none = .ok (.one o.1, .one o.2) := by
  cases rec with
  | none => exact ⟨⟨(none, none, none), _, rfl, rfl⟩, (none, none), rfl, rfl⟩
  | some B =>
    obtain ⟨g, hg, hg2⟩ := normalEntry_tot B
    obtain ⟨f, hf⟩ := revertEntry_tot B
    constructor
    · unfold normalArr normalMix
      by_cases h : wrongHem B.hem a = true
      · refine ⟨(none, none, none), [a], by simp [h], by simp [h, Arr.entries]; rfl⟩
      · rw [Bool.not_eq_true] at h
        have h' := hg (a, m)
        dsimp only at h'
        have h2 := hg2 (a, m)
        dsimp only at h2
        refine ⟨g (a, m), [a], ?_, ?_⟩
        · simp [h, mapE, h', bind, Except.bind, pure, Except.pure]
        · simp [h, h', h2, Arr.entries, Arr.map, Arr.zip, Arr.mapE, Except.map, bind, Except.bind, pure, Except.pure]
    · unfold revertArr revertMix
      by_cases h : wrongHem B.hem a = true
      · refine ⟨(none, none), by simp [h], by simp [h, Arr.entries]; rfl⟩
      · rw [Bool.not_eq_true] at h
        have h' := hf (a, m, c)
        dsimp only at h'
        refine ⟨f (a, m, c), ?_, ?_⟩
        · simp [h, mapE, h', bind, Except.bind, pure, Except.pure]
        · simp [h, h', Arr.entries, Arr.map, Arr.zip, Arr.mapE, Except.map, bind, Except.bind, pure, Except.pure]

/-- C177, as far as it holds for `revert_coord`: a mix with at least one array among the latitudes, local times and
corrections gives arrays with the results of the call in which each single value is written out.  Missing: arrays only among
the heights, see `C177_height_refuted`. -/
theorem C177_revert_partial (rec : Option Rec) (n : ℕ) (lat lt rc : Arr F) (la lm lc : List F) (hla : Stands n lat la)
    (hlm : Stands n lt lm) (hlc : Stands n rc lc) (harr : lat.shape = some n ∨ lt.shape = some n ∨ rc.shape = some n)
    (height : Shape) (hh : height = none ∨ height = some n) :
    ∃ out, revertArr rec (la.zip (lm.zip lc)) = .ok out ∧
      revertMix rec lat lt rc height = .ok (.many (out.map (·.1)), .many (out.map (·.2))) := by
  have hlen : (la.zip (lm.zip lc)).length = n := by simp [hla.1, hlm.1, hlc.1]
  have hm : maxShape [lat.shape, lt.shape, rc.shape, height] = some n := by
    refine (maxShape_of _ ?_).1 ?_
    · simp only [List.mem_cons, List.not_mem_nil, or_false]
      rintro s (rfl | rfl | rfl | rfl)
      · exact hla.shape
      · exact hlm.shape
      · exact hlc.shape
      · exact hh
    · simp only [List.mem_cons, List.not_mem_nil, or_false]
      rcases harr with h | h | h
      · exact .inl h.symm
      · exact .inr (.inl h.symm)
      · exact .inr (.inr (.inl h.symm))
  unfold revertArr revertMix
  rw [hm]
  have hnan : ∃ out, (Except.ok ((la.zip (lm.zip lc)).map fun _ => ((none, none) : F × F)) : Except PyErr _) = .ok out ∧
      (Except.ok (Arr.full (some n) (none : F), Arr.full (some n) (none : F)) : Except PyErr _) =
        .ok (.many (out.map (·.1)), .many (out.map (·.2))) :=
    ⟨_, rfl, by simp [Arr.full, hla.1, hlm.1, hlc.1]⟩
  cases rec with
  | none => exact hnan
  | some B =>
    obtain ⟨g, hg⟩ := revertEntry_tot B
    have hfst : (la.zip (lm.zip lc)).map (·.1) = la := List.map_fst_zip (by simp [hla.1, hlm.1, hlc.1])
    obtain ⟨z, z1, z2, z3⟩ := hla.zip hlm
    obtain ⟨w, w1, w2, w3⟩ := z2.zip hlc
    have wm := w2.many (w3 (by
      rcases harr with h | h | h
      · exact .inl (z3 (.inl h))
      · exact .inl (z3 (.inr h))
      · exact .inr h))
    have hw : (la.zip lm).zip lc = (la.zip (lm.zip lc)).map fun p => ((p.1, p.2.1), p.2.2) := by
      clear hla hlm hlc hlen hm harr hnan hfst z1 z2 z3 w1 w2 w3 wm
      induction la generalizing lm lc with
      | nil => rfl
      | cons a t ih => cases lm with
        | nil => rfl
        | cons b t' => cases lc with
          | nil => rfl
          | cons c t'' => simp only [List.zip_cons_cons, List.map_cons, ih]
    have hgood : ∃ out, mapE (fun p : F × F × F => revertEntry B p.1 p.2.1 p.2.2) (la.zip (lm.zip lc)) = .ok out ∧
        (do
          let p ← lat.zip lt
          let q ← p.zip rc
          let out ← q.mapE fun x => revertEntry B x.1.1 x.1.2 x.2
          pure (out.map (·.1), out.map (·.2)) : Except PyErr (Arr F × Arr F)) = .ok (.many (out.map (·.1)), .many (out.map (·.2))) := by
      refine ⟨_, mapE_map fun p _ => hg p, ?_⟩
      have hg' : ∀ x : (F × F) × F, revertEntry B x.1.1 x.1.2 x.2 = .ok (g (x.1.1, x.1.2, x.2)) := fun x => hg (x.1.1, x.1.2, x.2)
      rw [z1]
      simp only [bind, Except.bind, w1, arr_mapE hg', pure, Except.pure, wm, hw, Arr.map, List.map_map]
      rfl
    by_cases hn : n = 0
    · subst hn
      have e0 : la.zip (lm.zip lc) = [] := List.length_eq_zero_iff.1 hlen
      simp only [e0, List.map_nil, List.all_nil, if_true]
      refine ⟨[], rfl, ?_⟩
      by_cases hc : lat.entries.all (wrongHem B.hem) = true
      · simp only [hc, if_true]; rfl
      · simp only [hc]
        obtain ⟨out, h1, h2⟩ := hgood
        rw [e0] at h1
        cases h1
        exact h2
    · obtain ⟨h1, -⟩ := hla.all hn (wrongHem B.hem)
      simp only [h1, hfst]
      by_cases hc : la.all (wrongHem B.hem) = true
      · simp only [hc, if_true]
        exact hnan
      · simp only [hc]
        exact hgood

/-- C177 is false for the radius corrections: with an array of latitudes of which one is in the hemisphere, and a single local
time, the correction comes as a single value. -/
theorem C177_corr_refuted (B : Rec) (l : List F) (m : F) (lat : ℝ) (hl : some lat ∈ l) (hlat : InHem B.hem lat) (height : Shape) :
    ∃ a b, normalMix (some B) (.many l) (.one m) height = .ok (.many a, .many b, .one (m.map B.rf)) ∧ a.length = l.length := by
  obtain ⟨g, hg, -⟩ := normalEntry_tot B
  have hw : wrongHem B.hem (some lat) = false := (wrongHem_iff _ _).2 ⟨_, rfl, hlat⟩
  have hc : ((Arr.many l).entries.any (wrongHem B.hem) && (Arr.many l).entries.all (wrongHem B.hem)) = false := by
    rw [Bool.and_eq_false_iff]
    right
    rw [List.all_eq_false]
    exact ⟨_, hl, by simp [hw]⟩
  unfold normalMix
  simp only [hc, Arr.map, Arr.zip, bind, Except.bind, arr_mapE hg, pure, Except.pure]
  exact ⟨_, _, rfl, by simp⟩

/-- C177 is false for the heights: with heights in an array and the rest single, the result is single or an array, depending on the
hemisphere of the location. -/
theorem C177_height_refuted (B : Rec) (lat : ℝ) (m c : F) (n : ℕ) :
    (InHem B.hem lat → (∃ x y z, normalMix (some B) (.one (some lat)) (.one m) (some n) = .ok (.one x, .one y, .one z)) ∧
      ∃ x y, revertMix (some B) (.one (some lat)) (.one m) (.one c) (some n) = .ok (.one x, .one y)) ∧
    (¬ InHem B.hem lat → normalMix (some B) (.one (some lat)) (.one m) (some n) =
        .ok (.many (List.replicate n none), .many (List.replicate n none), .many (List.replicate n none)) ∧
      revertMix (some B) (.one (some lat)) (.one m) (.one c) (some n) =
        .ok (.many (List.replicate n none), .many (List.replicate n none))) := by
  obtain ⟨g, hg, -⟩ := normalEntry_tot B
  obtain ⟨f, hf⟩ := revertEntry_tot B
  constructor
  · intro h
    have hw : wrongHem B.hem (some lat) = false := (wrongHem_iff _ _).2 ⟨_, rfl, h⟩
    have hf' : ∀ x : (F × F) × F, revertEntry B x.1.1 x.1.2 x.2 = .ok (f (x.1.1, x.1.2, x.2)) := fun x => hf (x.1.1, x.1.2, x.2)
    constructor
    · unfold normalMix
      simp [Arr.entries, hw, Arr.map, Arr.zip, bind, Except.bind, arr_mapE hg, pure, Except.pure]
    · unfold revertMix
      simp [Arr.entries, hw, Arr.map, Arr.zip, bind, Except.bind, arr_mapE hf', pure, Except.pure]
  · intro h
    have hw : wrongHem B.hem (some lat) = true := by
      rw [← Bool.not_eq_false, wrongHem_iff]
      rintro ⟨x, hx, h'⟩
      cases hx
      exact h h'
    constructor
    · unfold normalMix
      simp [Arr.entries, hw, Arr.shape, maxShape, shapeLe, Arr.full]
    · unfold revertMix
      simp [Arr.entries, hw, Arr.shape, maxShape, shapeLe, Arr.full]

example : Stands 2 (.one (some 6)) [some 6, some 6] ∧ Stands 2 (.many [some 80, some 65]) [some 80, some 65] ∧
    InHem exRec.hem 80 ∧ ¬ InHem exRec.hem (-80) := by
  refine ⟨⟨rfl, .inr ⟨_, rfl, rfl⟩⟩, ⟨rfl, .inl rfl⟩, ?_, ?_⟩
  · simp [InHem, exRec]
  · simp only [InHem, exRec]
    rw [sign_neg (by norm_num)]
    norm_num

/-! ## C178 -/

theorem Stands.cast {α : Type} {n : ℕ} {x : Arr α} {l : List α} (h : Stands n x l) : castTo n x = .ok l := by
  obtain ⟨h1, rfl | ⟨a, rfl, rfl⟩⟩ := h
  · simp [castTo, h1]
  · rfl

theorem cast_height {n : ℕ} {height : Shape} (h : height = none ∨ height = some n) :
    castTo n (Arr.full height ()) = .ok (List.replicate n ()) := by
  rcases h with rfl | rfl
  · rfl
  · simp [castTo, Arr.full]

theorem maxShape_three {n : ℕ} {a b c : Shape} (ha : a = none ∨ a = some n) (hb : b = none ∨ b = some n) (hc : c = none ∨ c = some n)
    (h : a = some n ∨ b = some n ∨ c = some n) : maxShape [a, b, c] = some n := by
  refine (maxShape_of _ ?_).1 ?_
  · simp only [List.mem_cons, List.not_mem_nil, or_false]
    rintro s (rfl | rfl | rfl) <;> assumption
  · simp only [List.mem_cons, List.not_mem_nil, or_false]
    rcases h with h | h | h
    · exact .inl h.symm
    · exact .inr (.inl h.symm)
    · exact .inr (.inr h.symm)

/-- C178 for `normal_coord`: any mix of single values and arrays of one length, heights included, gives the results of the call
in which each single value is written out. -/
theorem C178_normal (D : DualObj) (s : DStore) (fresh n : ℕ) (lat lt : Arr F) (la lm : List F) (hla : Stands n lat la)
    (hlm : Stands n lt lm) (height : Shape) (hh : height = none ∨ height = some n)
    (harr : lat.shape = some n ∨ lt.shape = some n ∨ height = some n) (ow : Bool) :
    dualNormalMix D s fresh lat lt height ow = (dualNormal D s fresh (la.zip lm) ow).map fun o =>
      (.many (o.1.map (·.1)), .many (o.1.map (·.2.1)), .many (o.1.map (·.2.2.1)), .many (o.1.map (·.2.2.2))) := by
  unfold dualNormalMix
  rw [maxShape_three hla.shape hlm.shape hh harr]
  simp only [hla.cast, hlm.cast, cast_height hh, bind, Except.bind]
  cases dualNormal D s fresh (la.zip lm) ow with
  | error e => rfl
  | ok o => rfl

/-- C178: single values give the single values of the call with arrays of length one. -/
theorem C178_single {D : DualObj} {O E : Rec} (hD : PairOk D O E) (s : DStore) (hs : s.WF D) (fresh : ℕ) (a c : F) (ow : Bool) :
    ∃ o s', dualNormal D s fresh [(a, c)] ow = .ok ([o], s') ∧
      dualNormalMix D s fresh (.one a) (.one c) none ow = .ok (.one o.1, .one o.2.1, .one o.2.2.1, .one o.2.2.2) := by
  obtain ⟨f, -, -, h⟩ := dual_rows hD
  obtain ⟨out, s', h1, h2⟩ := h s hs fresh [(a, c)] ow
  have : ∃ o, out = [o] := by
    rcases h2 with ⟨-, rfl⟩ | ⟨bad, rfl, -⟩
    · exact ⟨_, rfl⟩
    · exact ⟨_, rfl⟩
  obtain ⟨o, rfl⟩ := this
  refine ⟨o, s', h1, ?_⟩
  unfold dualNormalMix
  show (do
    let (out, _) ← dualNormal D s fresh [(a, c)] ow
    let o ← pyIdx out 0
    pure (Arr.one o.1, Arr.one o.2.1, Arr.one o.2.2.1, Arr.one o.2.2.2)) = _
  rw [h1]
  rfl

theorem maxShape_none {l : List Shape} (h : maxShape l = none) : ∀ s ∈ l, s = none := by
  have key : ∀ (l : List Shape) (a : Shape), l.foldl (fun a b => if shapeLe a b then b else a) a = none → a = none ∧ ∀ s ∈ l, s = none := by
    intro l
    induction l with
    | nil => intro a h; exact ⟨h, by simp⟩
    | cons b t ih =>
      intro a h
      obtain ⟨h1, h2⟩ := ih _ h
      cases a with
      | none =>
        simp only [shapeLe, if_true] at h1
        exact ⟨rfl, by simpa [h1] using h2⟩
      | some a => cases b <;> simp [shapeLe] at h1 <;> split at h1 <;> cases h1
  exact (key l none h).2

theorem cast_ne {α : Type} {n : ℕ} {x : Arr α} {k : ℕ} (h : x.shape = some k) (hk : k ≠ n) : castTo n x = .error .valueError := by
  cases x with
  | one a => cases h
  | many l => simp only [Arr.shape, Option.some.injEq] at h; simp [castTo, h, hk]

theorem cast_err {α : Type} {n : ℕ} {x : Arr α} {e : PyErr} (h : castTo n x = .error e) : e = .valueError := by
  cases x with
  | one a => cases h
  | many l =>
    by_cases hl : l.length = n
    · simp [castTo, hl] at h
    · simp only [castTo, if_neg hl] at h
      cases h; rfl

/-- C178: arrays of different lengths among latitudes, local times and heights are refused, by `normal_coord` and `revert_coord`
alike. -/
theorem C178_mismatch (D : DualObj) (s : DStore) (fresh : ℕ) (lat lt : Arr F) (height : Shape) (ow : Bool) (j k : ℕ) (hjk : j ≠ k)
    (hj : some j ∈ [lat.shape, lt.shape, height]) (hk : some k ∈ [lat.shape, lt.shape, height]) :
    dualNormalMix D s fresh lat lt height ow = .error .valueError ∧
    ∀ rc amlt isOcb, dualRevertMix D s fresh lat lt rc amlt height isOcb ow = .error .valueError := by
  obtain ⟨i, hi, hin⟩ : ∃ i, some i ∈ [lat.shape, lt.shape, height] ∧ ∀ n, maxShape [lat.shape, lt.shape, height] = some n → i ≠ n := by
    cases hm : maxShape [lat.shape, lt.shape, height] with
    | none => cases maxShape_none hm _ hj
    | some n =>
      by_cases h : j = n
      · exact ⟨k, hk, fun n' e => by cases e; omega⟩
      · exact ⟨j, hj, fun n' e => by cases e; exact h⟩
  unfold dualNormalMix dualRevertMix
  cases hm : maxShape [lat.shape, lt.shape, height] with
  | none => cases maxShape_none hm _ hj
  | some n =>
    have hne := hin n hm
    have hsh : (Arr.full height ()).shape = height := by cases height <;> simp [Arr.full, Arr.shape]
    have hc : (castTo n lat = .error .valueError ∨ castTo n lt = .error .valueError ∨ castTo n (Arr.full height ()) = .error .valueError) := by
      simp only [List.mem_cons, List.not_mem_nil, or_false] at hi
      rcases hi with h | h | h
      · exact .inl (cast_ne h.symm hne)
      · exact .inr (.inl (cast_ne h.symm hne))
      · exact .inr (.inr (cast_ne (hsh.trans h.symm) hne))
    simp only [bind, Except.bind]
    cases h1 : castTo n lat with
    | error e => cases cast_err h1; exact ⟨rfl, fun _ _ _ => rfl⟩
    | ok a =>
      cases h2 : castTo n lt with
      | error e => cases cast_err h2; exact ⟨rfl, fun _ _ _ => rfl⟩
      | ok b =>
        cases h3 : castTo n (Arr.full height ()) with
        | error e => cases cast_err h3; exact ⟨rfl, fun _ _ _ => rfl⟩
        | ok c => rw [h1, h2, h3] at hc; rcases hc with h | h | h <;> cases h

theorem revertEntry_same {D : DualObj} {b : F} (h : equatorward D b = false) (cur : F × F) (m o e : F) : dualRevertEntry D b cur m o e = cur := by
  cases b with
  | none => rfl
  | some b =>
    simp only [equatorward, absLt, Bool.or_eq_false_iff, decide_eq_false_iff_not] at h
    simp only [dualRevertEntry, if_neg h.1, if_neg h.2]

/-- With arrays of one length every entry is treated on its own. -/
theorem putRegions_ok (D : DualObj) {n : ℕ} {lats : List F} {cur : List (F × F)} {amlt ob eb : List F} (h1 : lats.length = n)
    (h2 : cur.length = n) (h3 : amlt.length = n) (h4 : ob.length = n) (h5 : eb.length = n) :
    putRegions D lats cur amlt ob eb =
      .ok (((lats.zip cur).zip (amlt.zip (ob.zip eb))).map fun r => dualRevertEntry D r.1.1 r.1.2 r.2.1 r.2.2.1 r.2.2.2) := by
  unfold putRegions
  rw [if_neg]
  · congr 1
    apply List.ext_getElem
    · simp [h1, h2, h3, h4, h5]
    · intro i hi hi'
      simp only [List.length_map, List.length_zipIdx] at hi
      simp [h1, h3, h4, h5, h2 ▸ hi]
  · rw [List.any_eq_true]
    rintro ⟨⟨b, i⟩, hm, hb⟩
    have := List.snd_lt_of_mem_zipIdx hm
    simp only [Bool.and_eq_true, Bool.or_eq_true, decide_eq_true_eq] at hb
    omega

/-- The store with the array `m` of local times at the address `fresh`. -/
def withArr (s : DStore) (fresh : ℕ) (m : List F) : DStore := { s with heap := Function.update s.heap fresh m }

theorem withArr_wf {D : DualObj} {s : DStore} (hs : s.WF D) (fresh : ℕ) (m : List F) : (withArr s fresh m).WF D :=
  ⟨hs.oWF, hs.eWF, hs.oPaired, hs.ePaired⟩

theorem bound_with {D : DualObj} {O E : Rec} (hD : PairOk D O E) {s : DStore} (hs : s.WF D) (fresh : ℕ) (m : List F) (ow : Bool) :
    ∃ s', boundStep D (withArr s fresh m) fresh ow = .ok (m.map (·.bind (bLat O)), m.map (·.bind (bLat E)), s') ∧
      s'.heap fresh = wrap2 m := by
  obtain ⟨s', h1, -, h2, -⟩ := boundStep_out hD.sel hD.oDaily hD.eDaily (withArr s fresh m) (withArr_wf hs fresh m) fresh ow
  have e : (withArr s fresh m).heap fresh = m := by simp [withArr]
  rw [e] at h1 h2
  exact ⟨s', h1, by rw [h2]; simp⟩

theorem dualRevertCast_ok {D : DualObj} {O E : Rec} (hD : PairOk D O E) {s : DStore} (hs : s.WF D) (fresh n : ℕ)
    {la lm lc lx : List F} (hla : la.length = n) (hlm : lm.length = n) {rc : Arr F} (hrc : Stands n rc lc) {amlt : Arr F}
    (hx : Stands n amlt lx) (single : Bool) (hsing : single = true → n = 1) (ow : Bool) :
    (dualRevertCast D s fresh la lm rc (some amlt) single false ow =
      (dualRevert D (withArr s fresh lx) (la.zip (lm.zip lc)) (some fresh) ow).map (·.1)) ∧
    (∀ a, dualRevertCast D s fresh la lm rc a single true ow = revertArr (some O) (la.zip (lm.zip lc))) ∧
    (dualRevertCast D s fresh la lm rc none single false ow =
      (dualRevert D s (la.zip (lm.zip lc)) none ow).map (·.1)) := by
  have hla' : Stands n (.many la) la := ⟨hla, .inl rfl⟩
  have hlm' : Stands n (.many lm) lm := ⟨hlm, .inl rfl⟩
  obtain ⟨out, o1, o2⟩ := C177_revert_partial (some O) n (.many la) (.many lm) rc la lm lc hla' hlm' hrc
    (.inl (by simp [Arr.shape, hla])) (some la.length) (.inr (by rw [hla]))
  have olen : out.length = n := by
    obtain ⟨cur, c1, c2⟩ := revertArr_cur O hD.oValid (la.zip (lm.zip lc))
    rw [o1] at c1
    cases c1
    rw [← c2.length_eq]
    simp [hla, hlm, hrc.1]
  have hfst : (la.zip (lm.zip lc)).map (·.1) = la := List.map_fst_zip (by simp [hla, hlm, hrc.1])
  have hall : ((la.zip (lm.zip lc)).all fun p => absGe p.1 (some D.ocbLat)) = la.all fun l => absGe l (some D.ocbLat) := by
    conv_rhs => rw [← hfst]
    rw [List.all_map]
    rfl
  have hcur : (out.map (·.1)).zip (out.map (·.2)) = out := by
    clear o1 o2 olen
    induction out with
    | nil => rfl
    | cons x t ih => simp only [List.map_cons, List.zip_cons_cons, ih]
  have hm : mltArray single la.length amlt = lx := by
    obtain ⟨h1, rfl | ⟨a, rfl, rfl⟩⟩ := hx
    · rfl
    · show (if single = true then [a] else List.replicate la.length a) = _
      split
      · rename_i h; rw [hsing h]; rfl
      · rw [hla]
  obtain ⟨s', b1, b2⟩ := bound_with hD hs fresh lx ow
  unfold dualRevertCast dualRevert
  rw [selRec_sel hD.sel, o1, o2]
  simp only [bind, Except.bind, pure, Except.pure, Arr.entries, hcur, hall, Bool.false_or, Bool.true_or, if_true]
  refine ⟨?_, fun _ => trivial, ?_⟩
  · split
    · rfl
    · rw [hm]
      have b1' := b1
      unfold withArr at b1'
      rw [b1', b1]
      simp only [b2]
      rw [putRegions_ok D hla olen (by simp [wrap2, hx.1]) (by simp [hx.1]) (by simp [hx.1])]
      simp only [Except.map]
      congr 1
      have : ∀ (l : List F) (q : List (F × F)) (r : List (F × F)) (t : List (F × F × F)), l.length = q.length →
          ((l.zip r).zip t).map (fun x => dualRevertEntry D x.1.1 x.1.2 x.2.1 x.2.2.1 x.2.2.2) =
          (((l.zip q).zip r).zip t).map fun x => dualRevertEntry D x.1.1.1 x.1.2 x.2.1 x.2.2.1 x.2.2.2 := by
        intro l
        induction l with
        | nil => intros; rfl
        | cons a t ih =>
          intro q r u h
          cases q with
          | nil => cases h
          | cons b q =>
            cases r with
            | nil => rfl
            | cons c r =>
              cases u with
              | nil => rfl
              | cons d u =>
                simp only [List.zip_cons_cons, List.map_cons]
                rw [ih q r u (by simpa using h)]
      exact this _ _ _ _ (by simp [hla, hlm, hrc.1])
  · split <;> rfl

/-- C178 for `revert_coord`, as far as it holds: with at least one array among latitudes, local times and heights, and the corrections
and magnetic local times single or of the same length, the result is that of the call in which each single value is written
out.  Missing: arrays only among the corrections or the magnetic local times, see `C178_corr_refuted` and
`C178_mlt_refuted`. -/
theorem C178_revert_partial {D : DualObj} {O E : Rec} (hD : PairOk D O E) (s : DStore) (hs : s.WF D) (fresh n : ℕ)
    (lat lt rc amlt : Arr F) (la lm lc lx : List F) (hla : Stands n lat la) (hlm : Stands n lt lm) (hrc : Stands n rc lc)
    (hx : Stands n amlt lx) (height : Shape) (hh : height = none ∨ height = some n)
    (harr : lat.shape = some n ∨ lt.shape = some n ∨ height = some n) (ow : Bool) :
    (dualRevertMix D s fresh lat lt rc (some amlt) height false ow =
      (dualRevert D (withArr s fresh lx) (la.zip (lm.zip lc)) (some fresh) ow).map fun o => (.many (o.1.map (·.1)), .many (o.1.map (·.2)))) ∧
    (dualRevertMix D s fresh lat lt rc none height false ow =
      (dualRevert D s (la.zip (lm.zip lc)) none ow).map fun o => (.many (o.1.map (·.1)), .many (o.1.map (·.2)))) ∧
    (∀ a, dualRevertMix D s fresh lat lt rc a height true ow =
      (revertArr (some O) (la.zip (lm.zip lc))).map fun o => (.many (o.map (·.1)), .many (o.map (·.2)))) := by
  obtain ⟨h1, h2, h3⟩ := dualRevertCast_ok hD hs fresh n hla.1 hlm.1 hrc hx false (by simp) ow
  unfold dualRevertMix
  rw [maxShape_three hla.shape hlm.shape hh harr]
  simp only [hla.cast, hlm.cast, cast_height hh, bind, Except.bind, h1, h2, h3]
  refine ⟨?_, ?_, fun a => ?_⟩
  · cases dualRevert D (withArr s fresh lx) (la.zip (lm.zip lc)) (some fresh) ow <;> rfl
  · cases dualRevert D s (la.zip (lm.zip lc)) none ow <;> rfl
  · cases revertArr (some O) (la.zip (lm.zip lc)) <;> rfl

/-- C178: single values throughout give the single values of the call with arrays of length one. -/
theorem C178_revert_single {D : DualObj} {O E : Rec} (hD : PairOk D O E) (s : DStore) (hs : s.WF D) (fresh : ℕ) (a m c x : F)
    (ow : Bool) :
    (∃ o s', dualRevert D (withArr s fresh [x]) [(a, m, c)] (some fresh) ow = .ok ([o], s') ∧
      dualRevertMix D s fresh (.one a) (.one m) (.one c) (some (.one x)) none false ow = .ok (.one o.1, .one o.2)) ∧
    (∀ y, ∃ o, revertArr (some O) [(a, m, c)] = .ok [o] ∧
      dualRevertMix D s fresh (.one a) (.one m) (.one c) y none true ow = .ok (.one o.1, .one o.2)) := by
  obtain ⟨h1, h2, -⟩ := dualRevertCast_ok hD hs fresh 1 (la := [a]) (lm := [m]) (lc := [c]) (lx := [x]) rfl rfl
    (rc := .one c) ⟨rfl, .inr ⟨_, rfl, rfl⟩⟩ (amlt := .one x) ⟨rfl, .inr ⟨_, rfl, rfl⟩⟩ true (fun _ => rfl) ow
  obtain ⟨cur, c1, c2⟩ := revertArr_cur O hD.oValid [(a, m, c)]
  obtain ⟨o, rfl⟩ : ∃ o, cur = [o] := by
    have := c2.length_eq
    match cur, this with
    | [o], _ => exact ⟨o, rfl⟩
  simp only [List.zip_cons_cons, List.zip_nil_right] at h1 h2
  constructor
  · obtain ⟨s', b1, b2⟩ := bound_with hD hs fresh [x] ow
    obtain ⟨o', hs'⟩ : ∃ o', ∃ s'', dualRevert D (withArr s fresh [x]) [(a, m, c)] (some fresh) ow = .ok ([o'], s'') := by
      unfold dualRevert
      rw [selRec_sel hD.sel, c1]
      simp only [bind, Except.bind, pure, Except.pure]
      split
      · exact ⟨_, _, rfl⟩
      · rw [b1]
        simp only [b2]
        exact ⟨_, _, rfl⟩
    obtain ⟨s'', e⟩ := hs'
    refine ⟨o', s'', e, ?_⟩
    show (do
      let out ← dualRevertCast D s fresh [a] [m] (.one c) (some (.one x)) true false ow
      let o ← pyIdx out 0
      pure (Arr.one o.1, Arr.one o.2)) = _
    rw [h1, e]
    rfl
  · intro y
    refine ⟨o, c1, ?_⟩
    show (do
      let out ← dualRevertCast D s fresh [a] [m] (.one c) y true true ow
      let o ← pyIdx out 0
      pure (Arr.one o.1, Arr.one o.2)) = _
    rw [h2, c1]
    rfl

/-- C178 is false for the corrections: a single location with an array of corrections gives a single value, the one for the first
correction, where the OCB alone gives one value for each correction. -/
theorem C178_corr_refuted {D : DualObj} {O E : Rec} (hD : PairOk D O E) (s : DStore) (fresh : ℕ) (a : ℝ)
    (ha : InHem O.hem a) (m c : F) (cs : List F) (amlt : Option (Arr F)) (ow : Bool) :
    ∃ o xs ys, revertArr (some O) [(some a, m, c)] = .ok [o] ∧
      dualRevertMix D s fresh (.one (some a)) (.one m) (.many (c :: cs)) amlt none true ow = .ok (.one o.1, .one o.2) ∧
      revertMix (some O) (.one (some a)) (.one m) (.many (c :: cs)) none = .ok (.many (o.1 :: xs), .many (o.2 :: ys)) ∧
      xs.length = cs.length ∧ ys.length = cs.length := by
  obtain ⟨f, hf⟩ := revertEntry_tot O
  have hf' : ∀ x : (F × F) × F, revertEntry O x.1.1 x.1.2 x.2 = .ok (f (x.1.1, x.1.2, x.2)) := fun x => hf (x.1.1, x.1.2, x.2)
  have hw : wrongHem O.hem (some a) = false := (wrongHem_iff _ _).2 ⟨_, rfl, ha⟩
  have h0 := hf (some a, m, c)
  dsimp only at h0
  refine ⟨f (some a, m, c), cs.map fun c => (f (some a, m, c)).1, cs.map fun c => (f (some a, m, c)).2, ?_, ?_, ?_, by simp, by simp⟩
  · simp [revertArr, hw, mapE, h0]
  · show (do
      let out ← dualRevertCast D s fresh [some a] [m] (.many (c :: cs)) amlt true true ow
      let o ← pyIdx out 0
      pure (Arr.one o.1, Arr.one o.2)) = _
    unfold dualRevertCast
    rw [selRec_sel hD.sel]
    have hr : revertMix (some O) (.many [some a]) (.many [m]) (.many (c :: cs)) (some [some a].length) =
        .ok (.many ((c :: cs).map fun c => (f (some a, m, c)).1), .many ((c :: cs).map fun c => (f (some a, m, c)).2)) := by
      have hz : (Arr.many [(some a, m)]).zip (.many (c :: cs)) = .ok (.many ((c :: cs).map fun c => ((some a, m), c))) := by
        cases cs with
        | nil => rfl
        | cons d t => simp [Arr.zip]
      unfold revertMix
      simp only [Arr.entries, List.all_cons, List.all_nil, hw, Bool.false_and, bind, Except.bind]
      have hz' : (Arr.many [some a]).zip (Arr.many [m]) = .ok (.many [(some a, m)]) := rfl
      rw [hz']
      simp only [hz, arr_mapE hf', pure, Except.pure, Arr.map, List.map_map]
      rfl
    rw [hr]
    rfl
  · unfold revertMix
    simp [Arr.entries, hw, Arr.map, Arr.zip, bind, Except.bind, arr_mapE hf', pure, Except.pure, Function.comp_def]

/-- C178 is false for the magnetic local times: of an array of them for a single location only the first is used, the result is that
for the first one given alone. -/
theorem C178_mlt_refuted {D : DualObj} {O E : Rec} (hD : PairOk D O E) (s : DStore) (hs : s.WF D) (fresh : ℕ) (a m c x : F)
    (xs : List F) (ow : Bool) :
    dualRevertMix D s fresh (.one a) (.one m) (.one c) (some (.many (x :: xs))) none false ow =
      dualRevertMix D s fresh (.one a) (.one m) (.one c) (some (.one x)) none false ow := by
  show (do
    let out ← dualRevertCast D s fresh [a] [m] (.one c) (some (.many (x :: xs))) true false ow
    let o ← pyIdx out 0
    pure (Arr.one o.1, Arr.one o.2)) = (do
    let out ← dualRevertCast D s fresh [a] [m] (.one c) (some (.one x)) true false ow
    let o ← pyIdx out 0
    pure (Arr.one o.1, Arr.one o.2))
  suffices h : dualRevertCast D s fresh [a] [m] (.one c) (some (.many (x :: xs))) true false ow =
      dualRevertCast D s fresh [a] [m] (.one c) (some (.one x)) true false ow by rw [h]
  unfold dualRevertCast
  cases hr : revertMix (selRec D.ocbRecs D.ocbRecInd) (.many [a]) (.many [m]) (.one c) (some [a].length) with
  | error e => rfl
  | ok r =>
    simp only [bind, Except.bind, mltArray, if_true]
    split
    · rfl
    · have hcur : (r.1.entries.zip r.2.entries).length ≤ 1 := by
        obtain ⟨out, o1, o2⟩ := C177_revert_partial (some O) 1 (.many [a]) (.many [m]) (.one c) [a] [m] [c] ⟨rfl, .inl rfl⟩ ⟨rfl, .inl rfl⟩
          ⟨rfl, .inr ⟨_, rfl, rfl⟩⟩ (.inl rfl) (some [a].length) (.inr rfl)
        rw [selRec_sel hD.sel, o2] at hr
        cases hr
        obtain ⟨cur, c1, c2⟩ := revertArr_cur O hD.oValid [(a, m, c)]
        simp only [List.zip_cons_cons, List.zip_nil_right] at o1
        rw [o1] at c1
        cases c1
        have := c2.length_eq
        simp only [List.length_cons, List.length_nil] at this
        simp [Arr.entries, ← this]
      obtain ⟨s1, b1, b2⟩ := bound_with hD hs fresh (x :: xs) ow
      obtain ⟨s2, b3, b4⟩ := bound_with hD hs fresh [x] ow
      unfold withArr at b1 b3
      rw [b1, b3]
      simp only [b2, b4]
      generalize r.1.entries.zip r.2.entries = cur at hcur
      match cur, hcur with
      | [], _ => simp [putRegions, wrap2]
      | [q], _ => simp [putRegions, wrap2]

example : PairOk exDual exRec exEab ∧ InHem exRec.hem 80 ∧ ([some 0, some 1] : List F) ≠ [] := by
  refine ⟨exDual_ok, ?_, by simp⟩
  simp [InHem, exRec]

/-! ## C179 -/

theorem Stands.fill {α : Type} {n : ℕ} {x : Arr α} {l : List α} (h : Stands n x l) : fillWith (some n) x = .ok (.many l) := by
  obtain ⟨h1, rfl | ⟨a, rfl, rfl⟩⟩ := h
  · simp [fillWith, h1]
  · rfl

theorem calcREntry_same {D : DualObj} {b : F} (h : equatorward D b = false) (u o e : F) :
    calcREntry D b u o e = (some (90 - |D.ocbLat|), u) := by
  cases b with
  | none => rfl
  | some b =>
    simp only [equatorward, absLt, Bool.or_eq_false_iff, decide_eq_false_iff_not] at h
    simp only [calcREntry, if_neg h.1, if_neg h.2]

theorem calcREntry_eq {D : DualObj} {b : F} (h : equatorward D b = true) (u o e : F) :
    calcREntry D b u o e = ((calcREntry D b none none none).1, (calcREntry D b none o e).2) := by
  cases b with
  | none => simp [equatorward, absLt] at h
  | some b =>
    simp only [equatorward, absLt, Bool.or_eq_true, decide_eq_true_eq] at h
    simp only [calcREntry]
    split
    · rfl
    · rename_i h1
      have h2 := h.resolve_right h1
      simp only [if_pos h2]

theorem zip_replicate_left {α β : Type} (a : α) (l : List β) (n : ℕ) (h : l.length = n) :
    (List.replicate n a).zip l = l.map fun b => (a, b) := by
  subst h
  induction l with
  | nil => rfl
  | cons b t ih => simp only [List.length_cons, List.replicate_succ, List.zip_cons_cons, List.map_cons, ih]

/-- The results of `calc_r` for arrays. -/
theorem calcR_rows {D : DualObj} {O E : Rec} (hD : PairOk D O E) (s : DStore) (hs : s.WF D) (fresh : ℕ) (pts : List (F × F)) (lx : List F)
    (ow : Bool) : ∃ s', Coord.calcR D (withArr s fresh lx) pts fresh ow =
      .ok ((pts.zip (lx.map fun m => (m.bind (bLat O), m.bind (bLat E)))).map
        (fun r => calcREntry D r.1.1 (r.1.2.map fun c => O.r + c) r.2.1 r.2.2), s') := by
  obtain ⟨s', h, -⟩ := calcR_out hD (withArr s fresh lx) (withArr_wf hs fresh lx) pts fresh ow
  have e : (withArr s fresh lx).heap fresh = lx := by simp [withArr]
  rw [e] at h
  exact ⟨s', h⟩

/-- C179, as far as it holds: with a current pair, the radii are those of the call in which each single value is written out, if
the latitudes and magnetic local times are arrays, or if the latitude is single and the corrections or the normalised local
times are an array.  Missing: an array of latitudes with a single magnetic local time, see `C179_float_refuted`; an array
only among the magnetic local times, see `C179_mlt_refuted`; no current pair, see `C179_nopair_refuted`. -/
theorem C179_mix_partial {D : DualObj} {O E : Rec} (hD : PairOk D O E) (s : DStore) (hs : s.WF D) (fresh n : ℕ)
    (lat amlt rc : Arr F) (la lx lc : List F) (hla : Stands n lat la) (hx : Stands n amlt lx) (hrc : Stands n rc lc) (boundMlt : Shape)
    (hb : boundMlt = none ∨ boundMlt = some n)
    (harr : (lat.shape = some n ∧ amlt.shape = some n) ∨ (lat.shape = none ∧ (rc.shape = some n ∨ boundMlt = some n))) (ow : Bool) :
    ∃ out s', Coord.calcR D (withArr s fresh lx) (la.zip lc) fresh ow = .ok (out, s') ∧ out.length = n ∧
      calcRMix D s fresh lat boundMlt amlt rc ow = .ok (.flat (out.map (·.1)), .flat (out.map (·.2))) := by
  obtain ⟨s', c1⟩ := calcR_rows hD s hs fresh (la.zip lc) lx ow
  have hmax : maxShape [lat.shape, boundMlt, rc.shape] = some n := by
    refine maxShape_three hla.shape hb hrc.shape ?_
    rcases harr with h | ⟨-, h | h⟩
    · exact .inl h.1
    · exact .inr (.inr h)
    · exact .inr (.inl h)
  refine ⟨_, s', c1, by simp [hla.1, hrc.1, hx.1], ?_⟩
  unfold calcRMix
  rw [if_neg (by have := hD.sel.pos; have := hD.sel.lt; omega), pyIdx_pos hD.sel.pos hD.sel.oInd, hmax]
  simp only [bind, Except.bind, pure, Except.pure]
  rw [pyIdx_pos hD.sel.oPos hD.sel.oRec]
  simp only [(hrc.map fun c : F => c.map fun c => O.r + c).fill]
  obtain ⟨s1, b1, -⟩ := bound_with hD hs fresh amlt.entries ow
  unfold withArr at b1
  rw [b1]
  rcases harr with ⟨h1, h2⟩ | ⟨h1, h2⟩
  · obtain rfl := hla.many h1
    obtain rfl := hx.many h2
    simp only [Arr.entries, Arr.full, List.length_map]
    have hstart : (List.replicate n (some (90 - |D.ocbLat|) : F)).zip (lc.map fun c : F => c.map fun c => O.r + c) =
        lc.map fun c : F => ((some (90 - |D.ocbLat|) : F), c.map fun c => O.r + c) := by
      rw [zip_replicate_left _ _ _ (by simp [hrc.1]), List.map_map]
      rfl
    rw [hstart]
    have hrows : (la.zip lc).zip (lx.map fun m => (m.bind (bLat O), m.bind (bLat E))) =
        (la.zip (lc.zip lx)).map fun p => ((p.1, p.2.1), (p.2.2.bind (bLat O), p.2.2.bind (bLat E))) := by
      clear hla hx hrc hstart b1 c1 hmax h1 h2 hb
      induction la generalizing lc lx with
      | nil => rfl
      | cons a t ih => cases lc with
        | nil => rfl
        | cons b t' => cases lx with
          | nil => rfl
          | cons c t'' => simp only [List.zip_cons_cons, List.map_cons, ih]
    by_cases hany : la.any (equatorward D) = true
    · rw [if_pos hany, if_neg]
      · have : (lc.map fun c : F => ((some (90 - |D.ocbLat|) : F), c.map fun c => O.r + c)).zipIdx.map
            (radiiAt D la (lx.map (·.bind (bLat O))) (lx.map (·.bind (bLat E)))) =
            ((la.zip lc).zip (lx.map fun m => (m.bind (bLat O), m.bind (bLat E)))).map
              (fun r => calcREntry D r.1.1 (r.1.2.map fun c => O.r + c) r.2.1 r.2.2) := by
          apply List.ext_getElem
          · simp [hla.1, hrc.1, hx.1]
          · intro i hi hi'
            simp only [List.length_map, List.length_zipIdx, hrc.1] at hi
            simp [radiiAt, hla.1, hx.1, hi]
        rw [this]
      · rw [List.any_eq_true]
        rintro ⟨⟨b, i⟩, hm, hb'⟩
        have := List.snd_lt_of_mem_zipIdx hm
        simp only [Bool.and_eq_true, Bool.or_eq_true, decide_eq_true_eq, List.length_map] at hb'
        have := hla.1
        have := hx.1
        omega
    · rw [if_neg hany]
      have hno : ∀ b ∈ la, equatorward D b = false := by
        intro b hb'
        rw [← Bool.not_eq_true]
        exact fun h => hany (List.any_eq_true.2 ⟨b, hb', h⟩)
      have : ((la.zip lc).zip (lx.map fun m => (m.bind (bLat O), m.bind (bLat E)))).map
          (fun r => calcREntry D r.1.1 (r.1.2.map fun c => O.r + c) r.2.1 r.2.2) =
          lc.map fun c : F => ((some (90 - |D.ocbLat|) : F), c.map fun c => O.r + c) := by
        apply List.ext_getElem
        · simp [hla.1, hrc.1, hx.1]
        · intro i hi hi'
          simp only [List.getElem_map, List.getElem_zip]
          exact calcREntry_same (hno _ (List.getElem_mem _)) _ _ _
      rw [this]
  · obtain ⟨hl1, rfl | ⟨b, rfl, rfl⟩⟩ := hla
    · cases h1
    · by_cases heq : equatorward D b = true
      · simp only [heq, if_true]
        have hf : fillWith (some n) (.many (((amlt.entries.map (·.bind (bLat O))).zip (amlt.entries.map (·.bind (bLat E)))).map
            fun r => (calcREntry D b none r.1 r.2).2)) =
            .ok (.many (lx.map fun m : F => (calcREntry D b none (m.bind (bLat O)) (m.bind (bLat E))).2)) := by
          rw [List.zip_map', List.map_map]
          obtain ⟨hx1, rfl | ⟨x, rfl, rfl⟩⟩ := hx
          · simp only [Arr.entries, fillWith, List.length_map, hx1, if_true]
            rfl
          · simp only [Arr.entries, fillWith, List.map_cons, List.map_nil, List.length_cons, List.length_nil]
            split
            · rename_i hn; simp [← hn]
            · simp
        rw [hf]
        simp only [plain, Arr.full, Arr.map]
        have : ((List.replicate n b).zip lc).zip (lx.map fun m => (m.bind (bLat O), m.bind (bLat E))) =
            (lc.zip lx).map fun p => ((b, p.1), (p.2.bind (bLat O), p.2.bind (bLat E))) := by
          apply List.ext_getElem
          · simp [hrc.1, hx.1]
          · intro i hi hi'; simp
        rw [this]
        have key : ((lc.zip lx).map fun p : F × F => ((b, p.1), (p.2.bind (bLat O), p.2.bind (bLat E)))).map
            (fun r : (F × F) × F × F => calcREntry D r.1.1 (r.1.2.map fun c => O.r + c) r.2.1 r.2.2) =
            lx.map fun m : F => ((calcREntry D b none none none).1, (calcREntry D b none (m.bind (bLat O)) (m.bind (bLat E))).2) := by
          apply List.ext_getElem
          · simp [hrc.1, hx.1]
          · intro i hi hi'
            simp only [List.getElem_map, List.getElem_zip]
            rw [calcREntry_eq heq]
        rw [key, List.map_map, List.map_map]
        simp [Function.comp_def, hx.1]
      · rw [Bool.not_eq_true] at heq
        simp only [heq, plain, Arr.full]
        have : (((List.replicate n b).zip lc).zip (lx.map fun m => (m.bind (bLat O), m.bind (bLat E)))).map
            (fun r => calcREntry D r.1.1 (r.1.2.map fun c => O.r + c) r.2.1 r.2.2) =
            lc.map fun c : F => ((some (90 - |D.ocbLat|) : F), c.map fun c => O.r + c) := by
          apply List.ext_getElem
          · simp [hrc.1, hx.1]
          · intro i hi hi'
            simp only [List.getElem_map, List.getElem_zip, List.getElem_replicate]
            exact calcREntry_same heq _ _ _
        rw [this, List.map_map, List.map_map]
        simp [Function.comp_def, hrc.1]

/-- C179: single values throughout, with a current pair, give the single radii of the call with arrays of length one. -/
theorem C179_single {D : DualObj} {O E : Rec} (hD : PairOk D O E) (s : DStore) (hs : s.WF D) (fresh : ℕ) (a x c : F) (ow : Bool) :
    ∃ o s', Coord.calcR D (withArr s fresh [x]) [(a, c)] fresh ow = .ok ([o], s') ∧
      calcRMix D s fresh (.one a) none (.one x) (.one c) ow = .ok (.one o.1, .one o.2) := by
  obtain ⟨s', c1⟩ := calcR_rows hD s hs fresh [(a, c)] [x] ow
  refine ⟨_, s', c1, ?_⟩
  unfold calcRMix
  rw [if_neg (by have := hD.sel.pos; have := hD.sel.lt; omega), pyIdx_pos hD.sel.pos hD.sel.oInd]
  simp only [bind, Except.bind, pure, Except.pure]
  rw [pyIdx_pos hD.sel.oPos hD.sel.oRec]
  obtain ⟨s1, b1, -⟩ := bound_with hD hs fresh [x] ow
  unfold withArr at b1
  have hm : maxShape [(Arr.one a : Arr F).shape, none, (Arr.one c : Arr F).shape] = none := rfl
  simp only [Arr.entries, b1, hm]
  by_cases h : equatorward D a = true
  · simp only [h, if_true, Arr.map, fillWith, Arr.full, List.map_cons, List.map_nil, List.zip_cons_cons, List.zip_nil_right, plain]
    rw [calcREntry_eq h (c.map fun c => O.r + c) (x.bind (bLat O)) (x.bind (bLat E))]
  · rw [Bool.not_eq_true] at h
    simp [h, Arr.map, fillWith, Arr.full, plain, calcREntry_same h]

/-- C179 is false for a single magnetic local time: with an array of latitudes of which one is equatorward of a reference latitude,
the boundary is a number without entries and a `TypeError` is raised. -/
theorem C179_float_refuted {D : DualObj} {O E : Rec} (hD : PairOk D O E) (s : DStore) (hs : s.WF D) (fresh : ℕ) (la : List F) (b : ℝ)
    (hb : some b ∈ la) (hlt : |b| < |D.ocbLat|) (m c : F) (ow : Bool) :
    calcRMix D s fresh (.many la) (some la.length) (.one m) (.one c) ow = .error .typeError := by
  unfold calcRMix
  rw [if_neg (by have := hD.sel.pos; have := hD.sel.lt; omega), pyIdx_pos hD.sel.pos hD.sel.oInd]
  simp only [bind, Except.bind, pure, Except.pure]
  rw [pyIdx_pos hD.sel.oPos hD.sel.oRec]
  obtain ⟨s1, b1, -⟩ := bound_with hD hs fresh [m] ow
  unfold withArr at b1
  have hany : la.any (equatorward D) = true := by
    rw [List.any_eq_true]
    exact ⟨_, hb, by simp [equatorward, absLt, hlt]⟩
  simp only [Arr.entries, b1, Arr.map, fillWith, hany, if_true]

/-- C179 is false for an array only among the magnetic local times: a single latitude equatorward of a reference latitude with
more than one magnetic local time is refused. -/
theorem C179_mlt_refuted {D : DualObj} {O E : Rec} (hD : PairOk D O E) (s : DStore) (hs : s.WF D) (fresh : ℕ) (b : ℝ)
    (hlt : |b| < |D.ocbLat|) (lx : List F) (hlx : lx.length ≠ 1) (c : F) (ow : Bool) :
    calcRMix D s fresh (.one (some b)) none (.many lx) (.one c) ow = .error .valueError := by
  unfold calcRMix
  rw [if_neg (by have := hD.sel.pos; have := hD.sel.lt; omega), pyIdx_pos hD.sel.pos hD.sel.oInd]
  simp only [bind, Except.bind, pure, Except.pure]
  rw [pyIdx_pos hD.sel.oPos hD.sel.oRec]
  obtain ⟨s1, b1, -⟩ := bound_with hD hs fresh lx ow
  unfold withArr at b1
  have h : equatorward D (some b) = true := by simp [equatorward, absLt, hlt]
  have hm : maxShape [(Arr.one (some b) : Arr F).shape, none, (Arr.one c : Arr F).shape] = none := rfl
  simp only [Arr.entries, b1, Arr.map, h, if_true, hm, List.zip_map', List.map_map]
  match lx, hlx with
  | [], _ => rfl
  | [_], h => exact absurd rfl h
  | _ :: _ :: _, _ => rfl

/-- C179 is false without a current pair: single values give arrays of length one, and a single latitude with an array of
corrections gives arrays with one row. -/
theorem C179_nopair_refuted (D : DualObj) (h : D.recInd < 0 ∨ D.records ≤ D.recInd) (s : DStore) (fresh : ℕ) (a x : F) (amlt : Arr F)
    (lc : List F) (ow : Bool) :
    (∀ c, calcRMix D s fresh (.one a) none (.one x) (.one c) ow = .ok (.flat [some (90 - |D.ocbLat|)], .flat [none])) ∧
    calcRMix D s fresh (.one a) none amlt (.many lc) ow =
      .ok (.boxed (List.replicate lc.length (some (90 - |D.ocbLat|))), .boxed (List.replicate lc.length none)) := by
  unfold calcRMix
  simp only [if_pos h]
  exact ⟨fun c => rfl, by simp [maxShape, Arr.shape, shapeLe, Arr.full, boxed]⟩

example : PairOk exDual exRec exEab ∧ |(65 : ℝ)| < |exDual.ocbLat| ∧ some 65 ∈ ([some 80, some 65] : List F) := by
  refine ⟨exDual_ok, ?_, by simp⟩
  rw [abs_of_pos (by norm_num), abs_of_pos (by norm_num [exDual])]
  norm_num [exDual]

end Ocb.Scale
