import Verif.Model.VectText
import Verif.Props.Scaling
import Verif.Props.PysatData

/-!
# C127: the text of a vector object stands for the object
-/

set_option autoImplicit false

namespace Ocb.Scale

open Ocb.Files (Name)

/-! ## The constructor on its own result -/

theorem spread_twice {α : Type*} (i : Arr ℤ) (x : Arr α) : spread i (spread i x) = spread i x := by
  cases x <;> cases i <;> rfl

theorem spread_id {α : Type*} (i : Arr ℤ) (x : Arr α) (h : x.shape = i.shape) : spread i x = x := by
  cases x <;> cases i <;> first | rfl | (simp [Arr.shape] at h)

theorem spread_single {α : Type*} (d : ℤ) (x : Arr α) : spread (.one d) x = x := by cases x <;> rfl

theorem distinct_all (s : Shape) : distinct [s, s, s, s, s, s] = [s] := by simp [distinct]

theorem maxShape_single (s : Shape) : maxShape [s] = s := by
  cases s with
  | none => exact (maxShape_pair 0).2.2.2
  | some n => exact (maxShape_pair n).1

/-- What the vector test does to locations of the shape of the index: the components take the same shape. -/
theorem vectorShape_form {v w : VD} (hla : spread v.datInd v.lat = v.lat) (hlt : spread v.datInd v.lt = v.lt)
    (h : testVectorShape v = (w, .ok ())) :
    w = { v with vshape := v.datInd.shape, vectN := spread v.datInd v.vectN, vectE := spread v.datInd v.vectE
                 vectZ := spread v.datInd v.vectZ } ∧
    v.lat.shape = v.datInd.shape ∧ v.lt.shape = v.datInd.shape ∧ (spread v.datInd v.vectN).shape = v.datInd.shape ∧
    (spread v.datInd v.vectE).shape = v.datInd.shape ∧ (spread v.datInd v.vectZ).shape = v.datInd.shape := by
  unfold testVectorShape at h
  simp only at h
  generalize hL : [v.lat.shape, v.lt.shape, v.datInd.shape, v.vectN.shape, v.vectE.shape, v.vectZ.shape] = L at h
  have mem : ∀ x ∈ [v.lat.shape, v.lt.shape, v.datInd.shape, v.vectN.shape, v.vectE.shape, v.vectZ.shape],
      x ∈ distinct L := fun x hx => by rw [distinct_mem, ← hL]; exact hx
  have hLa := mem v.lat.shape (by simp)
  have hLt := mem v.lt.shape (by simp)
  have hLd := mem v.datInd.shape (by simp)
  have hLn := mem v.vectN.shape (by simp)
  have hLe := mem v.vectE.shape (by simp)
  have hLz := mem v.vectZ.shape (by simp)
  clear mem
  split_ifs at h with c1 c2 c3
  · simp at h
  · simp at h
  · obtain ⟨s, hs⟩ | ⟨n, hs⟩ := distinct_cases L c1 (by rw [← hL]; simp)
    · rw [hs] at c2; simp at c2
    · have hmax : maxShape (distinct L) = some n := by
        rcases hs with hs | hs <;> rw [hs]
        · exact (maxShape_pair n).2.1
        · exact (maxShape_pair n).2.2.1
      have two : ∀ x, x ∈ distinct L → x = none ∨ x = some n := by
        intro x hx
        rcases hs with hs | hs <;> rw [hs] at hx <;> simp at hx
        · exact hx
        · exact hx.symm
      have hd : v.datInd.shape = some n := (two _ hLd).resolve_left c3
      obtain ⟨ds, hds⟩ : ∃ ds, v.datInd = .many ds := by
        cases hq : v.datInd with
        | one d => rw [hq] at hd; cases hd
        | many ds => exact ⟨ds, rfl⟩
      have hdl : ds.length = n := by rw [hds] at hd; exact Option.some.inj hd
      have grow : ∀ x : Arr F, (match x with
          | .one a => Arr.full (some n) a
          | x => x) = spread v.datInd x := by
        intro x
        rw [hds]
        cases x with
        | one a => show Arr.full (some n) a = Arr.full (some ds.length) a; rw [hdl]
        | many l => rfl
      have shp : ∀ x : Arr F, x.shape ∈ distinct L → (spread v.datInd x).shape = v.datInd.shape := by
        intro x hx
        cases x with
        | one a => exact spread_shape _ _
        | many l =>
          rw [hds, show spread (.many ds) (.many l) = Arr.many l from rfl, ← hds, hd]
          exact (two _ hx).resolve_left (by simp [Arr.shape])
      simp only [Prod.mk.injEq, and_true] at h
      refine ⟨?_, by rw [← shp _ hLa, hla], by rw [← shp _ hLt, hlt], shp _ hLn, shp _ hLe, shp _ hLz⟩
      rw [← h, hmax, hd, ← grow v.vectN, ← grow v.vectE, ← grow v.vectZ]
      cases v.vectN <;> cases v.vectE <;> cases v.vectZ <;> rfl
  · obtain ⟨s, hs⟩ | ⟨n, hs⟩ := distinct_cases L c1 (by rw [← hL]; simp)
    · rw [hs] at hLd hLn hLe hLz hLa hLt h
      simp only [List.mem_cons, List.not_mem_nil, or_false] at hLd hLn hLe hLz hLa hLt
      have hid : ∀ x : Arr F, x.shape = s → spread v.datInd x = x := fun x hx => spread_id _ _ (hx.trans hLd.symm)
      simp only [Prod.mk.injEq, and_true] at h
      rw [hid _ hLn, hid _ hLe, hid _ hLz, hLd]
      refine ⟨?_, hLa, hLt, hLn, hLe, hLz⟩
      rw [← h, maxShape_single]
    · exact absurd ⟨by rcases hs with hs | hs <;> rw [hs] <;> simp,
        by rcases hs with hs | hs <;> rw [hs] <;> simp⟩ c2

/-- The vector test accepts arrays of one shape. -/
theorem vectorShape_same (v : VD) (s : Shape) (h1 : v.lat.shape = s) (h2 : v.lt.shape = s) (h3 : v.datInd.shape = s)
    (h4 : v.vectN.shape = s) (h5 : v.vectE.shape = s) (h6 : v.vectZ.shape = s) :
    testVectorShape v = ({ v with vshape := s }, .ok ()) := by
  unfold testVectorShape
  simp only [h1, h2, h3, h4, h5, h6]
  rw [distinct_all, maxShape_single]
  simp

/-- The vector test accepts locations of the shape of the index and components that can take it. -/
theorem vectorShape_ok (v : VD) (h1 : v.lat.shape = v.datInd.shape) (h2 : v.lt.shape = v.datInd.shape)
    (h3 : (spread v.datInd v.vectN).shape = v.datInd.shape) (h4 : (spread v.datInd v.vectE).shape = v.datInd.shape)
    (h5 : (spread v.datInd v.vectZ).shape = v.datInd.shape) :
    testVectorShape v = ({ v with vshape := v.datInd.shape, vectN := spread v.datInd v.vectN
                                  vectE := spread v.datInd v.vectE, vectZ := spread v.datInd v.vectZ }, .ok ()) := by
  have cases3 : ∀ x : Arr F, (spread v.datInd x).shape = v.datInd.shape → x.shape = v.datInd.shape ∨ x.shape = none := by
    intro x hx
    cases x with
    | one a => exact .inr rfl
    | many l => left; rw [← hx]; cases v.datInd <;> rfl
  obtain ⟨d, hd⟩ | ⟨ds, hd⟩ : (∃ d, v.datInd = .one d) ∨ ∃ ds, v.datInd = .many ds := by
    cases v.datInd with
    | one d => exact .inl ⟨d, rfl⟩
    | many ds => exact .inr ⟨ds, rfl⟩
  · have hs : v.datInd.shape = none := by rw [hd]; rfl
    have q : ∀ x : Arr F, spread v.datInd x = x := fun x => by rw [hd, spread_single]
    simp only [q, hs] at h1 h2 h3 h4 h5 ⊢
    exact vectorShape_same v none h1 h2 hs h3 h4 h5
  · have hs : v.datInd.shape = some ds.length := by rw [hd]; rfl
    rw [hs] at h1 h2 h3 h4 h5 cases3
    have grow : ∀ x : Arr F, (match x with
        | .one a => Arr.full (some ds.length) a
        | x => x) = spread v.datInd x := by
      intro x
      rw [hd]
      cases x <;> rfl
    have same : ∀ x : Arr F, x.shape = some ds.length → spread v.datInd x = x := fun x hx =>
      spread_id _ _ (hx.trans hs.symm)
    have m1 : maxShape [some ds.length] = some ds.length := maxShape_single _
    have m2 : maxShape [some ds.length, none] = some ds.length := (maxShape_pair _).2.2.1
    rcases cases3 _ h3 with c1 | c1 <;> rcases cases3 _ h4 with c2 | c2 <;> rcases cases3 _ h5 with c3 | c3 <;>
      (unfold testVectorShape
       simp only [h1, h2, hs, c1, c2, c3]) <;>
      simp [distinct, m1, m2] <;> first
        | exact ⟨by rw [same _ c1], by rw [same _ c2], by rw [same _ c3]⟩
        | exact ⟨grow _, grow _, grow _⟩

/-- The object before the test of the boundary coordinates. -/
def beforeBound (lower : String → String) (a : Args) (m : Arr F) : VD :=
  { initial lower a with
    vectMag := m, vshape := a.datInd.shape, vectN := spread a.datInd a.vectN, vectE := spread a.datInd a.vectE
    vectZ := spread a.datInd a.vectZ, ocbLat := spread a.ocbInd a.ocbLat, ocbMlt := spread a.ocbInd a.ocbMlt
    rCorr := spread a.ocbInd a.rCorr }

/-- The constructed object. -/
def built (lower : String → String) (a : Args) (m : Arr F) (sh : Shape) : VD :=
  { clearData { beforeBound lower a m with vshape := sh } with scaleFunc := a.scaleFunc }

/-- The magnitude that the constructor stores: the calculated one for NaN, otherwise the given one. -/
def StoredMag (given calculated stored : Arr F) : Prop :=
  given.allNan = true ∧ stored = calculated ∨ given.allNan = false ∧ stored = given ∧ ∃ z, given.zip calculated = .ok z

/-- The conditions under which the constructor succeeds, and its result. -/
structure Builds (lower : String → String) (a : Args) (m : Arr F) (sh : Shape) : Prop where
  mag : ∃ s, magArr a.vectN a.vectE a.vectZ = .ok s ∧ StoredMag a.vectMag s m
  coords : testCoords (lower a.locCoord) (lower a.vectCoord) = .ok ()
  lat : (spread a.datInd a.lat).shape = a.datInd.shape
  lt : (spread a.datInd a.lt).shape = a.datInd.shape
  vectN : (spread a.datInd a.vectN).shape = a.datInd.shape
  vectE : (spread a.datInd a.vectE).shape = a.datInd.shape
  vectZ : (spread a.datInd a.vectZ).shape = a.datInd.shape
  bound : testBoundShape (beforeBound lower a m) = ({ beforeBound lower a m with vshape := sh }, .ok ())

theorem setVectMag_iff (v w : VD) (g : Arr F) : setVectMag v g = .ok w ↔
    ∃ s m, magArr v.vectN v.vectE v.vectZ = .ok s ∧ StoredMag g s m ∧ w = { v with vectMag := m } := by
  unfold setVectMag
  simp only [bind, Except.bind, pure, Except.pure]
  cases h : magArr v.vectN v.vectE v.vectZ with
  | error e => simp
  | ok s =>
    simp only [Except.ok.injEq, StoredMag]
    cases hg : g.allNan with
    | true =>
      simp only [if_true, Except.ok.injEq]
      constructor
      · rintro rfl; exact ⟨s, s, rfl, .inl ⟨trivial, rfl⟩, rfl⟩
      · rintro ⟨s', m, rfl, ⟨-, rfl⟩ | ⟨h, -⟩, rfl⟩
        · rfl
        · cases h
    | false =>
      simp only [Bool.false_eq_true, if_false]
      cases hz : g.zip s with
      | error e =>
        simp only [reduceCtorEq, false_iff]
        rintro ⟨s', m, rfl, ⟨h, -⟩ | ⟨-, -, z, h⟩, -⟩
        · cases h
        · rw [hz] at h; cases h
      | ok z =>
        simp only [Except.ok.injEq]
        constructor
        · rintro rfl; exact ⟨s, g, rfl, .inr ⟨trivial, rfl, z, hz⟩, rfl⟩
        · rintro ⟨s', m, rfl, ⟨h, -⟩ | ⟨-, rfl, -⟩, rfl⟩
          · cases h
          · rfl

theorem testBoundShape_form (v : VD) : ∃ s, (testBoundShape v).1 = { v with vshape := s } :=
  (testBoundShape_spec v).imp fun _ h => h.1

/-- The constructor, completely. -/
theorem construct_iff (lower : String → String) (a : Args) (v : VD) :
    construct lower a = .ok v ↔ ∃ m sh, Builds lower a m sh ∧ v = built lower a m sh := by
  unfold construct
  simp only [bind, Except.bind]
  constructor
  · intro h
    cases h1 : setVectMag (initial lower a) a.vectMag with
    | error x => rw [h1] at h; simp at h
    | ok u =>
      rw [h1] at h
      obtain ⟨s, m, hs, hm, rfl⟩ := (setVectMag_iff _ _ _).1 h1
      simp only at h
      cases h2 : testCoords (initial lower a).locCoord (initial lower a).vectCoord with
      | error x => rw [h2] at h; simp at h
      | ok t =>
        rw [h2] at h
        simp only at h
        unfold finish at h
        split at h
        · simp at h
        · rename_i w hw
          obtain ⟨rfl, e1, e2, e3, e4, e5⟩ := vectorShape_form (spread_twice _ _) (spread_twice _ _) hw
          split at h
          · simp at h
          · rename_i w' hw'
            obtain ⟨sh, hsh⟩ := testBoundShape_form (beforeBound lower a m)
            have hb : testBoundShape (beforeBound lower a m) = (w', .ok ()) := hw'
            rw [hb] at hsh
            replace hsh : w' = { beforeBound lower a m with vshape := sh } := hsh
            subst hsh
            refine ⟨m, sh, ⟨⟨s, hs, hm⟩, h2, e1, e2, e3, e4, e5, hb⟩, (Except.ok.inj h).symm⟩
  · rintro ⟨m, sh, ⟨⟨s, hs, hm⟩, h2, e1, e2, e3, e4, e5, hb⟩, rfl⟩
    rw [(setVectMag_iff _ _ _).2 ⟨s, m, hs, hm, rfl⟩]
    simp only
    rw [show testCoords (initial lower a).locCoord (initial lower a).vectCoord = .ok () from h2]
    simp only
    unfold finish
    rw [vectorShape_ok { initial lower a with vectMag := m } e1 e2 e3 e4 e5]
    simp only
    split
    · rename_i w e hw
      exact absurd ((congrArg Prod.snd hw).symm.trans (congrArg Prod.snd hb)) (by simp)
    · rename_i w hw
      have : w = { beforeBound lower a m with vshape := sh } := (congrArg Prod.fst hw).symm.trans (congrArg Prod.fst hb)
      rw [this]
      rfl

/-- The arguments that an object stands for. -/
def argsOf (v : VD) : Args :=
  { datInd := v.datInd, ocbInd := v.ocbInd, lat := v.lat, lt := v.lt, height := v.height, locCoord := v.locCoord
    ocbLat := v.ocbLat, ocbMlt := v.ocbMlt, rCorr := v.rCorr, vectN := v.vectN, vectE := v.vectE, vectZ := v.vectZ
    vectMag := v.vectMag, vectCoord := v.vectCoord, scaleFunc := v.scaleFunc }

/-- A stored magnitude that survives: one number, or as many as there are data indices. -/
def MagKept (v : VD) : Prop := (∃ x : ℝ, v.vectMag = .one (some x)) ∨ v.vectMag.shape = v.datInd.shape

theorem zip_single {α β : Type*} (a : α) (y : Arr β) : ∃ z, Arr.zip (.one a) y = .ok z := by cases y <;> exact ⟨_, rfl⟩

theorem allNan_one (x : ℝ) : (Arr.one (some x)).allNan = false := rfl

/-- Spreading values before or after they are combined makes no difference when the outcome is as long as the index. -/
theorem zip_spread {α β : Type*} (i : Arr ℤ) (x : Arr α) (y : Arr β) (z : Arr (α × β)) (hx : (spread i x).shape = i.shape)
    (hy : (spread i y).shape = i.shape) (h : x.zip y = .ok z) : (spread i x).zip (spread i y) = .ok (spread i z) := by
  cases i with
  | one d => rw [show spread (.one d) x = x by cases x <;> rfl, show spread (.one d) y = y by cases y <;> rfl, h,
      show spread (.one d) z = z by cases z <;> rfl]
  | many ds =>
    cases x with
    | one a =>
      cases y with
      | one b =>
        cases h
        show Arr.zip (.many (List.replicate ds.length a)) (.many (List.replicate ds.length b)) =
          .ok (.many (List.replicate ds.length (a, b)))
        simp [Arr.zip]
      | many m =>
        cases h
        have hm : m.length = ds.length := by simpa [spread, Arr.shape] using hy
        show Arr.zip (.many (List.replicate ds.length a)) (.many m) = .ok (.many (m.map fun b => (a, b)))
        simp only [Arr.zip, List.length_replicate, hm, if_true]
        congr 2
        rw [← hm]
        clear hm hy hx
        induction m with
        | nil => rfl
        | cons b m ih => simp [List.replicate_succ, ih]
    | many l =>
      have hl : l.length = ds.length := by simpa [spread, Arr.shape] using hx
      cases y with
      | one b =>
        cases h
        show Arr.zip (.many l) (.many (List.replicate ds.length b)) = .ok (.many (l.map fun a => (a, b)))
        simp only [Arr.zip, List.length_replicate, hl, if_true]
        congr 2
        rw [← hl]
        clear hl hy hx
        induction l with
        | nil => rfl
        | cons b m ih => simp [List.replicate_succ, ih]
      | many m =>
        have hm : m.length = ds.length := by simpa [spread, Arr.shape] using hy
        rw [show spread (.many ds) (.many l) = Arr.many l from rfl, show spread (.many ds) (.many m) = Arr.many m from rfl, h]
        simp only [Arr.zip, hl, hm, if_true] at h
        cases h
        rfl

theorem spread_map {α β : Type*} (i : Arr ℤ) (f : α → β) (x : Arr α) : spread i (x.map f) = (spread i x).map f := by
  cases x <;> cases i <;> simp [spread, Arr.map, Arr.full]

theorem zip_shape {α β : Type*} {i : Arr ℤ} {x : Arr α} {y : Arr β} {z : Arr (α × β)} (hx : (spread i x).shape = i.shape)
    (hy : (spread i y).shape = i.shape) (h : x.zip y = .ok z) : (spread i z).shape = i.shape := by
  have h1 := zip_spread i x y z hx hy h
  obtain ⟨z', h2, h3⟩ := zip_same (spread i x) (spread i y) (hx.trans hy.symm)
  rw [h1] at h2
  cases h2
  rw [h3, hx]

theorem magArr_spread {i : Arr ℤ} {n e z s : Arr F} (hn : (spread i n).shape = i.shape) (he : (spread i e).shape = i.shape)
    (hz : (spread i z).shape = i.shape) (h : magArr n e z = .ok s) :
    magArr (spread i n) (spread i e) (spread i z) = .ok (spread i s) ∧ (spread i s).shape = i.shape := by
  unfold magArr at h ⊢
  simp only [bind, Except.bind, pure, Except.pure] at h ⊢
  cases h1 : n.zip e with
  | error x => rw [h1] at h; simp at h
  | ok ne =>
    rw [h1] at h
    simp only at h
    cases h2 : ne.zip z with
    | error x => rw [h2] at h; simp at h
    | ok nez =>
      rw [h2] at h
      simp only [Except.ok.injEq] at h
      have s1 := zip_shape hn he h1
      rw [zip_spread i n e ne hn he h1]
      simp only
      rw [zip_spread i ne z nez s1 hz h2]
      subst h
      rw [spread_map]
      exact ⟨rfl, by rw [map_shape]; exact zip_shape s1 hz h2⟩

/-- The constructor applied to the attributes of an object it made: the same object, provided the stored magnitude is
one number or has as many entries as there are data indices. -/
theorem construct_again (lower : String → String) (hl : ∀ s, lower (lower s) = lower s) (a : Args) (v : VD)
    (h : construct lower a = .ok v) (hm : MagKept v) : construct lower (argsOf v) = .ok v := by
  obtain ⟨m, sh, b, rfl⟩ := (construct_iff _ _ _).1 h
  replace hm : (∃ x : ℝ, m = .one (some x)) ∨ m.shape = a.datInd.shape := hm
  obtain ⟨s, hs, hmag⟩ := b.mag
  obtain ⟨e7, e8⟩ := magArr_spread b.vectN b.vectE b.vectZ hs
  have hpre : beforeBound lower (argsOf (built lower a m sh)) m = beforeBound lower a m := by
    unfold beforeBound initial
    simp only [argsOf, built, clearData, beforeBound, initial, spread_twice, hl]
  refine (construct_iff _ _ _).2 ⟨m, sh, ⟨⟨spread a.datInd s, e7, ?_⟩, ?_, ?_, ?_, ?_, ?_, ?_, ?_⟩, ?_⟩
  · show StoredMag m _ m
    rcases hm with ⟨x, rfl⟩ | hm
    · exact .inr ⟨rfl, rfl, zip_single _ _⟩
    · obtain ⟨z, hz, -⟩ := zip_same m (spread a.datInd s) (hm.trans e8.symm)
      cases hn : m.allNan with
      | false => exact .inr ⟨hn, rfl, z, hz⟩
      | true =>
        rcases hmag with ⟨-, rfl⟩ | ⟨hg, rfl, -⟩
        · exact .inl ⟨hn, (spread_id _ _ hm).symm⟩
        · rw [hg] at hn; cases hn
  · show testCoords (lower (lower a.locCoord)) (lower (lower a.vectCoord)) = _
    rw [hl, hl]; exact b.coords
  · show (spread a.datInd (spread a.datInd a.lat)).shape = _
    rw [spread_twice]; exact b.lat
  · show (spread a.datInd (spread a.datInd a.lt)).shape = _
    rw [spread_twice]; exact b.lt
  · show (spread a.datInd (spread a.datInd a.vectN)).shape = _
    rw [spread_twice]; exact b.vectN
  · show (spread a.datInd (spread a.datInd a.vectE)).shape = _
    rw [spread_twice]; exact b.vectE
  · show (spread a.datInd (spread a.datInd a.vectZ)).shape = _
    rw [spread_twice]; exact b.vectZ
  · rw [hpre]; exact b.bound
  · show built lower a m sh = { clearData { beforeBound lower (argsOf (built lower a m sh)) m with vshape := sh } with
      scaleFunc := a.scaleFunc }
    rw [hpre]
    rfl

/-! ## C127: the text -/

/-- An array that numpy writes in full. -/
def Short {α : Type*} (x : Arr α) : Prop := ∀ l, x = .many l → 0 < l.length ∧ l.length ≤ 1000

/-- The numbers of an object. -/
def floats (v : VD) : List (Arr F) :=
  [v.lat, v.lt, v.height, v.ocbLat, v.ocbMlt, v.rCorr, v.vectN, v.vectE, v.vectZ, v.vectMag]

/-- The arrays of an object are written in full and without loss, and the names in the text are known. -/
structure Writable (s : Eval) (v : VD) : Prop where
  datInd : Short v.datInd
  ocbInd : Short v.ocbInd
  short : ∀ x ∈ floats v, Short x
  exact : ∀ x ∈ floats v, s.digits x = x
  nan : s.nanKnown = true ∨ ∀ x ∈ floats v, none ∉ x.entries
  known : ∀ f, v.scaleFunc = some f → s.look (s.nameOf f) = some f
  plain : ∀ f, v.scaleFunc = some f → ¬ "array".toList <:+: s.nameOf f

theorem written_short {α : Type*} {x : Arr α} (h : Short x) : written x = true := by
  cases x with
  | one a => rfl
  | many l => exact decide_eq_true (h l rfl)

theorem short_written {α : Type*} {x : Arr α} (h : written x = true) : Short x := by
  rintro l rfl
  exact of_decide_eq_true h

theorem renamed_plain {n : Name} (h : ¬ "array".toList <:+: n) : renamed n = n := by
  have := Pysat.replaceAux_skip "array".toList "numpy.array".toList n [] 0 (by
    intro a c t ht hp
    rw [List.append_nil] at hp
    exact h (hp.isInfix.trans (by rw [ht]; exact (List.suffix_append a _).isInfix)))
  unfold renamed Pysat.replace
  simpa [Pysat.replaceAux] using this

theorem evalInts_short {x : Arr ℤ} (h : Short x) : evalInts x = some x := by
  unfold evalInts; rw [if_pos (written_short h)]

theorem evalFloats_writable {s : Eval} {v : VD} (h : Writable s v) {x : Arr F} (hx : x ∈ floats v) :
    evalFloats s x = some x := by
  unfold evalFloats
  rw [written_short (h.short x hx), h.exact x hx, if_pos]
  rw [Bool.true_and, Bool.or_eq_true, List.all_eq_true]
  rcases h.nan with hn | hn
  · exact .inl hn
  · refine .inr fun y hy => ?_
    cases y with
    | none => exact absurd hy (hn x hx)
    | some y => rfl

theorem evalFunc_writable {s : Eval} {v : VD} (h : Writable s v) : evalFunc s v.scaleFunc = some v.scaleFunc := by
  cases hf : v.scaleFunc with
  | none => rfl
  | some f =>
    show Option.map some (s.look (renamed (s.nameOf f))) = _
    rw [renamed_plain (h.plain f hf), h.known f hf]
    rfl

/-- The text of such an object stands for its attributes. -/
theorem evalArgs_writable {s : Eval} {v : VD} (h : Writable s v) : evalArgs s v = some (argsOf v) := by
  unfold evalArgs
  rw [evalInts_short h.datInd, evalInts_short h.ocbInd, evalFunc_writable h]
  simp only [bind, Option.bind, pure]
  rw [evalFloats_writable h (x := v.lat) (by simp [floats]), evalFloats_writable h (x := v.lt) (by simp [floats]),
    evalFloats_writable h (x := v.height) (by simp [floats]), evalFloats_writable h (x := v.ocbLat) (by simp [floats]),
    evalFloats_writable h (x := v.ocbMlt) (by simp [floats]), evalFloats_writable h (x := v.rCorr) (by simp [floats]),
    evalFloats_writable h (x := v.vectN) (by simp [floats]), evalFloats_writable h (x := v.vectE) (by simp [floats]),
    evalFloats_writable h (x := v.vectZ) (by simp [floats]), evalFloats_writable h (x := v.vectMag) (by simp [floats])]
  rfl

/-- A text that has no `array` in it. -/
def PlainText (t : Option Name) : Prop := ∀ n, t = some n → ¬ "array".toList <:+: n

theorem renamed_text {t : Option Name} (h : PlainText t) : t.map renamed = t := by
  cases t with
  | none => rfl
  | some n => rw [Option.map_some, renamed_plain (h n rfl)]

/-- **C127** as far as it holds: for an object as the constructor made it, the text evaluates to the same object.
Missing: objects whose numbers need more than the written digits, with more than 1000 or with no entries, with a name, a
unit or a function module containing `array`, with results of `set_ocb`, with one NaN as magnitude of several vectors, and
evaluation where `nan` is not defined; the next theorems show that each of these really is an exception. -/
theorem C127_roundtrip_partial (s : Eval) (lower : String → String) (hl : ∀ s, lower (lower s) = lower s) (a : Args)
    (o : VObj) (h : construct lower a = .ok o.data) (hm : MagKept o.data) (hw : Writable s o.data)
    (hn : PlainText o.datName) (hu : PlainText o.datUnits) : evalRepr s lower o = some o := by
  unfold evalRepr
  rw [evalArgs_writable hw]
  simp only [bind, Option.bind, pure]
  rw [construct_again lower hl a o.data h hm, renamed_text hn, renamed_text hu]
  rfl

/-- An object whose arrays go together, with or without results. -/
structure Consistent (v : VD) : Prop where
  lat : v.lat.shape = v.datInd.shape
  lt : v.lt.shape = v.datInd.shape
  height : v.height.shape = v.datInd.shape
  vectN : v.vectN.shape = v.datInd.shape
  vectE : v.vectE.shape = v.datInd.shape
  vectZ : v.vectZ.shape = v.datInd.shape
  mag : MagKept v
  nan : v.vectMag.allNan = true → magArr v.vectN v.vectE v.vectZ = .ok v.vectMag
  coords : Compatible v.locCoord v.vectCoord
  mlt : v.ocbMlt.shape = v.ocbLat.shape
  corr : v.rCorr.shape = v.ocbLat.shape
  bound : v.ocbInd.shape = none ∨ v.ocbLat.shape = v.ocbInd.shape
  pair : v.ocbInd.shape = none ∨ v.datInd.shape = none ∨ v.ocbInd.shape = v.datInd.shape
  vshape : v.vshape = if v.ocbInd.shape = none then v.datInd.shape else v.ocbInd.shape

/-- The object without the results of `set_ocb`. -/
def withoutResults (v : VD) : VD := { clearData v with unscaledR := none, scaledR := none }

theorem construct_consistent (lower : String → String) (v : VD) (h : Consistent v) (h1 : lower v.locCoord = v.locCoord)
    (h2 : lower v.vectCoord = v.vectCoord) : construct lower (argsOf v) = .ok (withoutResults v) := by
  have hid : ∀ x : Arr F, x.shape = v.datInd.shape → spread v.datInd x = x := fun x hx => spread_id _ _ hx
  have hob : ∀ x : Arr F, x.shape = v.ocbLat.shape → spread v.ocbInd x = x := by
    intro x hx
    rcases h.bound with hb | hb
    · cases hi : v.ocbInd with
      | one o => exact spread_single _ _
      | many l => rw [hi] at hb; cases hb
    · exact spread_id _ _ (hx.trans hb)
  have hpre : beforeBound lower (argsOf v) v.vectMag =
      { initial lower (argsOf v) with
        vectMag := v.vectMag, vshape := v.datInd.shape, ocbLat := v.ocbLat, ocbMlt := v.ocbMlt, rCorr := v.rCorr } := by
    unfold beforeBound
    simp only [argsOf, hid _ h.vectN, hid _ h.vectE, hid _ h.vectZ, hob _ rfl, hob _ h.mlt, hob _ h.corr, initial]
  obtain ⟨ne, hne, sne⟩ := zip_same v.vectN v.vectE (h.vectN.trans h.vectE.symm)
  obtain ⟨nez, hnez, snez⟩ := zip_same ne v.vectZ (sne.trans (h.vectN.trans h.vectZ.symm))
  have hmag : magArr v.vectN v.vectE v.vectZ = .ok (nez.map mag3) := by
    unfold magArr; rw [hne]; simp only [bind, Except.bind, pure, Except.pure]; rw [hnez]
  have smag : (nez.map mag3).shape = v.datInd.shape := by rw [map_shape, snez, sne, h.vectN]
  refine (construct_iff _ _ _).2 ⟨v.vectMag, v.vshape, ⟨⟨_, hmag, ?_⟩, ?_, ?_, ?_, ?_, ?_, ?_, ?_⟩, ?_⟩
  · show StoredMag v.vectMag _ v.vectMag
    cases hn : v.vectMag.allNan with
    | true =>
      have := h.nan hn
      rw [hmag] at this
      exact .inl ⟨hn, (Except.ok.inj this).symm⟩
    | false =>
      refine .inr ⟨hn, rfl, ?_⟩
      rcases h.mag with ⟨x, hx⟩ | hx
      · rw [hx]; exact zip_single _ _
      · exact (zip_same _ _ (hx.trans smag.symm)).imp fun _ h => h.1
  · show testCoords (lower v.locCoord) (lower v.vectCoord) = _
    rw [h1, h2]; exact (C50_test _ _).1.2 h.coords
  · show (spread v.datInd v.lat).shape = _
    rw [hid _ h.lat]; exact h.lat
  · show (spread v.datInd v.lt).shape = _
    rw [hid _ h.lt]; exact h.lt
  · show (spread v.datInd v.vectN).shape = _
    rw [hid _ h.vectN]; exact h.vectN
  · show (spread v.datInd v.vectE).shape = _
    rw [hid _ h.vectE]; exact h.vectE
  · show (spread v.datInd v.vectZ).shape = _
    rw [hid _ h.vectZ]; exact h.vectZ
  · rw [hpre]
    unfold testBoundShape
    simp only [h.mlt, h.corr, distinct_same, maxShape_single]
    simp only [initial, argsOf]
    have hb := h.bound
    have hp := h.pair
    have hv := h.vshape
    by_cases c : v.ocbInd.shape = none
    · rw [if_pos c] at hv
      simp [c, hv]
    · rw [if_neg c] at hv
      have hb' := hb.resolve_left c
      simp only [hb', c, hv, ne_eq, not_false_eq_true, true_and, not_true_eq_false, or_self, if_false, List.length_singleton]
      rcases hp.resolve_left c with hd | hd
      · simp [hd]
      · rw [if_neg (by simp), if_neg (by rw [← hd]; exact c), if_neg (by simp [hd])]
        rw [hd]
  · unfold built
    rw [hpre]
    unfold withoutResults clearData
    simp only [initial, argsOf, hid _ h.lat, hid _ h.lt, hid _ h.height, h1, h2]

/-- **C127** for objects with results, as far as it holds: the text gives the object back without them.  Missing: the
results themselves (see the next theorem). -/
theorem C127_kept_partial (s : Eval) (lower : String → String) (o : VObj) (h : Consistent o.data)
    (h1 : lower o.data.locCoord = o.data.locCoord) (h2 : lower o.data.vectCoord = o.data.vectCoord)
    (hw : Writable s o.data) (hn : PlainText o.datName) (hu : PlainText o.datUnits) :
    evalRepr s lower o = some { o with data := withoutResults o.data } := by
  unfold evalRepr
  rw [evalArgs_writable hw]
  simp only [bind, Option.bind, pure]
  rw [construct_consistent lower o.data h h1 h2, renamed_text hn, renamed_text hu]
  rfl

/-- Whatever the text stands for is what the constructor makes of some arguments. -/
theorem evalRepr_made {s : Eval} {lower : String → String} {o o' : VObj} (h : evalRepr s lower o = some o') :
    ∃ a, evalArgs s o.data = some a ∧ construct lower a = .ok o'.data ∧ o'.datName = o.datName.map renamed ∧
      o'.datUnits = o.datUnits.map renamed := by
  unfold evalRepr at h
  simp only [bind, Option.bind, pure] at h
  cases ha : evalArgs s o.data with
  | none => rw [ha] at h; simp at h
  | some a =>
    rw [ha] at h
    simp only at h
    cases hc : construct lower a with
    | error e => rw [hc] at h; simp [Except.toOption] at h
    | ok v =>
      rw [hc] at h
      simp only [Except.toOption, Option.some.injEq] at h
      exact ⟨a, rfl, by rw [← h]; exact hc, by rw [← h], by rw [← h]⟩

/-- **C127** fails for objects with results: no object with a rotated component, or with the radii that `set_ocb` adds,
is what its text stands for. -/
theorem C127_results_refuted (s : Eval) (lower : String → String) (o : VObj)
    (h : (∃ x ∈ o.data.ocbN.entries, x ≠ none) ∨ o.data.unscaledR ≠ none ∨ o.data.scaledR ≠ none) :
    evalRepr s lower o ≠ some o := by
  intro he
  obtain ⟨a, -, hc, -, -⟩ := evalRepr_made he
  obtain ⟨m, sh, -, hv⟩ := (construct_iff _ _ _).1 hc
  rw [hv] at h
  rcases h with ⟨x, hx, hn⟩ | h | h
  · apply hn
    have : (built lower a m sh).ocbN = Arr.full sh none := rfl
    rw [this] at hx
    cases sh with
    | none => simpa [Arr.full, Arr.entries] using hx
    | some n => exact List.eq_of_mem_replicate hx
  · exact h rfl
  · exact h rfl

theorem replace_length_le (old new : Name) (hln : old.length ≤ new.length) (n : ℕ) (t : Name) :
    t.length ≤ (Pysat.replaceAux n old new t).length := by
  induction n generalizing t with
  | zero => exact Nat.le_refl _
  | succ n ih =>
    cases t with
    | nil => exact Nat.zero_le _
    | cons c t =>
      rw [Pysat.replaceAux]
      split_ifs with hp
      · have hp' := (List.isPrefixOf_iff_prefix.1 hp).length_le
        have := ih ((c :: t).drop old.length)
        rw [List.length_append]
        rw [List.length_drop] at this
        omega
      · have := ih t
        simp only [List.length_cons]; omega

theorem replace_length_lt (old new : Name) (ho : old ≠ []) (hln : old.length < new.length) (n : ℕ) (t : Name)
    (hn : t.length ≤ n) (hi : old <:+: t) : t.length < (Pysat.replaceAux n old new t).length := by
  induction n generalizing t with
  | zero =>
    have : t = [] := List.eq_nil_of_length_eq_zero (by omega)
    subst this
    exact absurd (List.infix_nil.1 hi) ho
  | succ n ih =>
    cases t with
    | nil => exact absurd (List.infix_nil.1 hi) ho
    | cons c t =>
      rw [Pysat.replaceAux]
      split_ifs with hp
      · have hp' := (List.isPrefixOf_iff_prefix.1 hp).length_le
        have := replace_length_le old new hln.le n ((c :: t).drop old.length)
        rw [List.length_append]
        rw [List.length_drop] at this
        omega
      · rcases List.infix_cons_iff.1 hi with h | h
        · exact absurd (List.isPrefixOf_iff_prefix.2 h) hp
        · have := ih t (by simp only [List.length_cons] at hn; omega) h
          simp only [List.length_cons]; omega

theorem renamed_changes {n : Name} (h : "array".toList <:+: n) : renamed n ≠ n := by
  intro he
  have := replace_length_lt "array".toList "numpy.array".toList (by decide) (by decide) n.length n le_rfl h
  exact absurd (congrArg List.length he) (by unfold renamed Pysat.replace; omega)

/-- **C127** fails for names and units with `array` in them, which come back changed. -/
theorem C127_name_refuted (s : Eval) (lower : String → String) (o : VObj)
    (h : (∃ n, o.datName = some n ∧ "array".toList <:+: n) ∨ ∃ n, o.datUnits = some n ∧ "array".toList <:+: n) :
    evalRepr s lower o ≠ some o := by
  intro he
  obtain ⟨a, -, -, h1, h2⟩ := evalRepr_made he
  rcases h with ⟨n, hn, hi⟩ | ⟨n, hn, hi⟩
  · rw [hn] at h1; exact renamed_changes hi (Option.some.inj h1).symm
  · rw [hn] at h2; exact renamed_changes hi (Option.some.inj h2).symm

/-- Every array of the text can be evaluated if the text can. -/
theorem evalArgs_parts {s : Eval} {v : VD} {a : Args} (h : evalArgs s v = some a) :
    evalInts v.datInd = some a.datInd ∧ evalInts v.ocbInd = some a.ocbInd ∧ evalFloats s v.lat = some a.lat ∧
    evalFloats s v.lt = some a.lt ∧ evalFloats s v.height = some a.height ∧ evalFloats s v.ocbLat = some a.ocbLat ∧
    evalFloats s v.ocbMlt = some a.ocbMlt ∧ evalFloats s v.rCorr = some a.rCorr ∧ evalFloats s v.vectN = some a.vectN ∧
    evalFloats s v.vectE = some a.vectE ∧ evalFloats s v.vectZ = some a.vectZ ∧
    evalFloats s v.vectMag = some a.vectMag := by
  unfold evalArgs at h
  obtain ⟨_, h1, h⟩ := Option.bind_eq_some_iff.1 h
  obtain ⟨_, h2, h⟩ := Option.bind_eq_some_iff.1 h
  obtain ⟨_, h3, h⟩ := Option.bind_eq_some_iff.1 h
  obtain ⟨_, h4, h⟩ := Option.bind_eq_some_iff.1 h
  obtain ⟨_, h5, h⟩ := Option.bind_eq_some_iff.1 h
  obtain ⟨_, h6, h⟩ := Option.bind_eq_some_iff.1 h
  obtain ⟨_, h7, h⟩ := Option.bind_eq_some_iff.1 h
  obtain ⟨_, h8, h⟩ := Option.bind_eq_some_iff.1 h
  obtain ⟨_, h9, h⟩ := Option.bind_eq_some_iff.1 h
  obtain ⟨_, h10, h⟩ := Option.bind_eq_some_iff.1 h
  obtain ⟨_, h11, h⟩ := Option.bind_eq_some_iff.1 h
  obtain ⟨_, h12, h⟩ := Option.bind_eq_some_iff.1 h
  obtain ⟨_, h13, h⟩ := Option.bind_eq_some_iff.1 h
  cases Option.some.inj h
  exact ⟨h1, h2, h3, h4, h5, h6, h7, h8, h9, h10, h11, h12⟩

/-- **C127** fails for more than 1000 vectors and for none: the text is no expression for an object. -/
theorem C127_long_refuted (s : Eval) (lower : String → String) (o : VObj) (ds : List ℤ) (hd : o.data.datInd = .many ds)
    (h : 1000 < ds.length ∨ ds = []) : evalRepr s lower o = none := by
  cases he : evalRepr s lower o with
  | none => rfl
  | some o' =>
    obtain ⟨a, ha, -⟩ := evalRepr_made he
    have h1 := (evalArgs_parts ha).1
    rw [hd] at h1
    unfold evalInts at h1
    split_ifs at h1 with hw
    have := short_written hw ds rfl
    rcases h with h | rfl
    · omega
    · simp at this

/-- **C127** fails where `nan` is not defined, for every object with a NaN in it, such as one without boundary
coordinates. -/
theorem C127_nan_name_refuted (s : Eval) (lower : String → String) (o : VObj) (hs : s.nanKnown = false)
    (h : ∃ x ∈ floats o.data, none ∈ x.entries) : evalRepr s lower o = none := by
  cases he : evalRepr s lower o with
  | none => rfl
  | some o' =>
    obtain ⟨a, ha, -⟩ := evalRepr_made he
    obtain ⟨x, hx, hn⟩ := h
    have key : ∀ y, evalFloats s x ≠ some y := by
      intro y hy
      unfold evalFloats at hy
      split_ifs at hy with hw
      rw [hs, Bool.false_or, Bool.and_eq_true, List.all_eq_true] at hw
      exact absurd (hw.2 none hn) (by simp)
    obtain ⟨-, -, h3, h4, h5, h6, h7, h8, h9, h10, h11, h12⟩ := evalArgs_parts ha
    simp only [floats, List.mem_cons, List.not_mem_nil, or_false] at hx
    rcases hx with rfl | rfl | rfl | rfl | rfl | rfl | rfl | rfl | rfl | rfl
    · exact absurd h3 (key _)
    · exact absurd h4 (key _)
    · exact absurd h5 (key _)
    · exact absurd h6 (key _)
    · exact absurd h7 (key _)
    · exact absurd h8 (key _)
    · exact absurd h9 (key _)
    · exact absurd h10 (key _)
    · exact absurd h11 (key _)
    · exact absurd h12 (key _)

/-- **C127** fails for one NaN as magnitude of several vectors: it comes back as one NaN for each of them. -/
theorem C127_nan_refuted (s : Eval) (lower : String → String) (a : Args) (o : VObj) (h : construct lower a = .ok o.data)
    (ds : List ℤ) (hd : o.data.datInd = .many ds) (hm : o.data.vectMag = .one none) (hx : s.digits (.one none) = .one none)
    (hk : ∀ x, (s.digits x).shape = x.shape) : evalRepr s lower o ≠ some o := by
  intro he
  obtain ⟨a', ha, hc, -, -⟩ := evalRepr_made he
  obtain ⟨m, sh, b, hv⟩ := (construct_iff _ _ _).1 h
  obtain ⟨m', sh', b', hv'⟩ := (construct_iff _ _ _).1 hc
  obtain ⟨h1, -, -, -, -, -, -, -, h9, h10, h11, h12⟩ := evalArgs_parts ha
  have e1 : o.data.datInd = a.datInd := by rw [hv]; rfl
  have e2 : o.data.datInd = a'.datInd := by
    unfold evalInts at h1; split_ifs at h1; exact Option.some.inj h1
  have e3 : ∀ x y : Arr F, evalFloats s x = some y → y = s.digits x := by
    intro x y hxy
    unfold evalFloats at hxy; split_ifs at hxy; exact (Option.some.inj hxy).symm
  obtain ⟨t, ht, hst⟩ := b'.mag
  have hg : a'.vectMag = .one none := by rw [e3 _ _ h12, hm, hx]
  have hmt : m' = t := by
    rcases hst with ⟨-, h⟩ | ⟨h, -⟩
    · exact h
    · rw [hg] at h; cases h
  have hmm : m' = .one none := by rw [← hm, hv']; rfl
  have sN : a'.vectN.shape = some ds.length := by
    rw [e3 _ _ h9, hk, hv, show (built lower a m sh).vectN = spread a.datInd a.vectN from rfl, b.vectN, ← e1, hd]; rfl
  -- the magnitudes of several vectors are several
  have : t.shape ≠ none := by
    unfold magArr at ht
    simp only [bind, Except.bind, pure, Except.pure] at ht
    cases hn : a'.vectN with
    | one x => rw [hn] at sN; cases sN
    | many l =>
      rw [hn] at ht
      cases h4 : (Arr.many l).zip a'.vectE with
      | error e => rw [h4] at ht; simp at ht
      | ok ne =>
        rw [h4] at ht
        simp only at ht
        cases h5 : ne.zip a'.vectZ with
        | error e => rw [h5] at ht; simp at ht
        | ok nez =>
          rw [h5] at ht
          simp only [Except.ok.injEq] at ht
          rw [← ht, map_shape]
          have many : ∀ {α β : Type} (x : List α) (y : Arr β) (z : Arr (α × β)), (Arr.many x).zip y = .ok z →
              ∃ l, z = .many l := by
            intro α β x y z hz
            cases y with
            | one b => cases hz; exact ⟨_, rfl⟩
            | many m =>
              simp only [Arr.zip] at hz
              split_ifs at hz with hc
              · exact ⟨_, (Except.ok.inj hz).symm⟩
              · split at hz
                · exact ⟨_, (Except.ok.inj hz).symm⟩
                · exact ⟨_, (Except.ok.inj hz).symm⟩
                · cases hz
          obtain ⟨l1, rfl⟩ := many _ _ _ h4
          obtain ⟨l2, rfl⟩ := many _ _ _ h5
          simp [Arr.shape]
  rw [← hmt, hmm] at this
  exact this rfl

/-- **C127** fails for latitudes that need more digits than are written. -/
theorem C127_digits_refuted (s : Eval) (lower : String → String) (a : Args) (o : VObj) (h : construct lower a = .ok o.data)
    (hx : s.digits o.data.lat ≠ o.data.lat) (hk : ∀ x, (s.digits x).shape = x.shape) : evalRepr s lower o ≠ some o := by
  intro he
  obtain ⟨a', ha, hc, -, -⟩ := evalRepr_made he
  obtain ⟨m, sh, b, hv⟩ := (construct_iff _ _ _).1 h
  obtain ⟨m', sh', b', hv'⟩ := (construct_iff _ _ _).1 hc
  obtain ⟨h1, -, h3, -⟩ := evalArgs_parts ha
  have e2 : a'.datInd = o.data.datInd := by
    unfold evalInts at h1; split_ifs at h1; exact (Option.some.inj h1).symm
  have e3 : a'.lat = s.digits o.data.lat := by
    unfold evalFloats at h3; split_ifs at h3; exact (Option.some.inj h3).symm
  have sl : o.data.lat.shape = o.data.datInd.shape := by rw [hv]; exact b.lat
  apply hx
  conv_rhs => rw [hv', show (built lower a' m' sh').lat = spread a'.datInd a'.lat from rfl, e2, e3]
  rw [spread_id _ _ ((hk _).trans sl)]

/-! ### Examples -/

/-- Two vectors at one boundary with boundary coordinates and results. -/
noncomputable def pairVD : VD :=
  { datInd := .many [4, 7], ocbInd := .one 2, lat := .many [some 75, some 80], lt := .many [some 22, some 3]
    height := .many [some 350, some 350], vectN := .many [some 3, some 0], vectE := .many [some 4, some 1]
    vectZ := .many [some 0, none], vectMag := .many [some 5, none], locCoord := "magnetic", vectCoord := "magnetic"
    ocbLat := .many [some 77, some 81], ocbMlt := .many [some 21, some 2], rCorr := .many [some 0, some 0]
    vshape := some 2, ocbN := .many [some 1, none], ocbE := .many [some 2, none], ocbZ := .many [some 3, none]
    ocbMag := .many [some 4, none], ocbQuad := .many [1, 2], vecQuad := .many [1, 2], poleAngle := .many [some 9, some 8]
    aacgmLat := .many [some 88, some 88], aacgmMlt := .many [some 0, some 0], unscaledR := some (.many [some 15, some 15])
    scaledR := some (.one (some 16)), scaleFunc := none }

theorem pair_consistent : Consistent pairVD :=
  { lat := rfl, lt := rfl, height := rfl, vectN := rfl, vectE := rfl, vectZ := rfl, mag := .inr rfl
    nan := fun h => by simp [pairVD, Arr.allNan, Arr.entries] at h
    coords := by simp [Compatible, pairVD]
    mlt := rfl, corr := rfl, bound := .inl rfl, pair := .inl rfl, vshape := rfl }

/-- An evaluation that knows `nan`, for numbers that are written without loss. -/
def niceEval : Eval := ⟨true, id, fun _ => "m.f".toList, fun _ => none⟩

theorem pair_writable : Writable niceEval pairVD :=
  { datInd := by rintro l h; cases h; decide
    ocbInd := by rintro l h; cases h
    short := by
      intro x hx l h
      simp only [floats, pairVD, List.mem_cons, List.not_mem_nil, or_false] at hx
      rcases hx with rfl | rfl | rfl | rfl | rfl | rfl | rfl | rfl | rfl | rfl <;> cases h <;> simp
    exact := fun _ _ => rfl
    nan := .inl rfl
    known := fun f h => by cases h
    plain := fun f h => by cases h }

/-- The object with results loses them and nothing else. -/
example : evalRepr niceEval id ⟨pairVD, some "wind".toList, some "m/s".toList⟩ =
    some ⟨withoutResults pairVD, some "wind".toList, some "m/s".toList⟩ :=
  C127_kept_partial niceEval id ⟨pairVD, some "wind".toList, some "m/s".toList⟩ pair_consistent rfl rfl pair_writable
    (by rintro n h; cases h; decide) (by rintro n h; cases h; decide)

example : evalRepr niceEval id ⟨pairVD, none, none⟩ ≠ some ⟨pairVD, none, none⟩ :=
  C127_results_refuted _ _ _ (.inl ⟨some 1, by simp [pairVD, Arr.entries], by simp⟩)

/-- The object as constructed comes back. -/
example : evalRepr niceEval id ⟨withoutResults pairVD, some "wind".toList, none⟩ =
    some ⟨withoutResults pairVD, some "wind".toList, none⟩ :=
  C127_roundtrip_partial niceEval id (fun _ => rfl) (argsOf pairVD) ⟨withoutResults pairVD, some "wind".toList, none⟩
    (construct_consistent id pairVD pair_consistent rfl rfl) (.inr rfl)
    { pair_writable with } (by rintro n h; cases h; decide) (by rintro n h; cases h)

/-- Where `nan` is unknown, or the name contains `array`, it does not. -/
example : evalRepr { niceEval with nanKnown := false } id ⟨withoutResults pairVD, none, none⟩ = none ∧
    evalRepr niceEval id ⟨withoutResults pairVD, some "EISCAT array".toList, none⟩ ≠
      some ⟨withoutResults pairVD, some "EISCAT array".toList, none⟩ :=
  ⟨C127_nan_name_refuted _ _ _ rfl ⟨pairVD.vectZ, by simp [floats, withoutResults, clearData], by simp [pairVD, Arr.entries]⟩,
    C127_name_refuted _ _ _ (.inl ⟨_, rfl, by decide⟩)⟩

/-- Two vectors with one NaN for their vertical component, and the default arguments otherwise. -/
noncomputable def nanArgs : Args :=
  { datInd := .many [0, 1], ocbInd := .one 2, lat := .many [some 75, some 80], lt := .one (some 22), height := .one (some 350)
    locCoord := "magnetic", ocbLat := .one none, ocbMlt := .one none, rCorr := .one none, vectN := .one (some 3)
    vectE := .one (some 4), vectZ := .one none, vectMag := .one none, vectCoord := "magnetic", scaleFunc := none }

example : ∃ v, construct id nanArgs = .ok v ∧ v.datInd = .many [0, 1] ∧ v.vectMag = .one none ∧
    evalRepr niceEval id ⟨v, none, none⟩ ≠ some ⟨v, none, none⟩ := by
  have h : construct id nanArgs = .ok (built id nanArgs (.one none) (some 2)) :=
    (construct_iff _ _ _).2 ⟨_, _, ⟨⟨.one none, rfl, .inl ⟨rfl, rfl⟩⟩, (C50_test _ _).1.2 (by simp [Compatible, nanArgs]),
      rfl, rfl, rfl, rfl, rfl, rfl⟩, rfl⟩
  exact ⟨_, h, rfl, rfl, C127_nan_refuted niceEval id nanArgs ⟨_, none, none⟩ h [0, 1] rfl rfl rfl fun _ => rfl⟩

/-- numpy writes eight decimals: a latitude of a third of a degree does not come back. -/
example : ∃ v, construct id (oneArgs 0 3 (1 / 3) 22 50 86 5 "magnetic" "magnetic") = .ok v ∧
    evalRepr { niceEval with digits := fun x => x.map fun y => y.map fun r => (round (r * 10 ^ 8) : ℤ) / 10 ^ 8 } id
      ⟨v, none, none⟩ ≠ some ⟨v, none, none⟩ := by
  obtain ⟨v, hv, -, -, hl, -⟩ := oneArgs_ok id rfl 0 3 (1 / 3) 22 50 86 5
  refine ⟨v, hv, C127_digits_refuted _ id _ ⟨v, none, none⟩ hv ?_ fun x => map_shape _ _⟩
  show v.lat.map _ ≠ v.lat
  rw [hl]
  intro h
  have h1 : (((round ((1 / 3 : ℝ) * 10 ^ 8) : ℤ) : ℝ) / 10 ^ 8) = 1 / 3 := Option.some.inj (Arr.one.inj h)
  have h2 : (((3 * round ((1 / 3 : ℝ) * 10 ^ 8) : ℤ) : ℝ)) = ((10 ^ 8 : ℤ) : ℝ) := by
    push_cast
    field_simp at h1
    linarith
  have h3 := Int.cast_injective h2
  omega

/-- An object of 1001 vectors. -/
example (v : VD) (h : v.datInd = .many (List.replicate 1001 0)) : evalRepr niceEval id ⟨v, none, none⟩ = none :=
  C127_long_refuted _ _ _ _ h (.inl (by rw [List.length_replicate]; omega))

end Ocb.Scale
