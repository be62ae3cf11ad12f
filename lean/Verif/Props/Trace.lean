import Verif.Model.Trace
import Verif.Props.VectMagMore

/-!
# C168: the tracing method of `set_ocb`
-/

set_option autoImplicit false

namespace Ocb.Scale

open Ocb.Time Ocb.Coord Ocb.Vec

/-- For magnetic locations nothing is traced, so the method does not matter (C166 for the boundary classes). -/
def MagneticSame (normal : String → Normal) : Prop :=
  ∀ (m m' : String) (k : ℤ) (la lt h : Arr F), normal m k la lt "magnetic" h = normal m' k la lt "magnetic" h

/-- The loop over the indices for a magnetic location. -/
theorem normalLoop_same (b : Bnd) (n n' : Normal) (hn : ∀ k la lt h, n k la lt "magnetic" h = n' k la lt "magnetic" h)
    (ks : List ℤ) : ∀ (v : VD) (i : ℕ), v.locCoord = "magnetic" →
      normalLoop { b with normal := n } v i ks = normalLoop { b with normal := n' } v i ks := by
  induction ks with
  | nil => intro v i _; simp only [normalLoop]
  | cons k ks ih =>
    intro v i hv
    rw [normalLoop, normalLoop]
    simp only [hv, hn]
    congr 1
    funext x
    congr 1
    funext la
    congr 1
    funext ml
    congr 1
    funext rc
    exact ih _ _ rfl

theorem fillCoords_same (b : Bnd) (n n' : Normal) (hn : ∀ k la lt h, n k la lt "magnetic" h = n' k la lt "magnetic" h)
    (v : VD) (hv : v.locCoord = "magnetic") : fillCoords { b with normal := n } v = fillCoords { b with normal := n' } v := by
  unfold fillCoords
  cases v.ocbInd with
  | one k => simp only [hv, hn]
  | many ks => simp only [normalLoop_same b n n' hn ks v 0 hv]

/-- C168, refuted: for geographic vectors, and for vectors at magnetic locations, `set_ocb` does the same with every
tracing method. -/
theorem C168_same_refuted (lower : String → String) (hl : lower "magnetic" = "magnetic") (lib : String → Aacgm) (b : Bnd)
    (normal : String → Normal) (hn : MagneticSame normal) (f : Option (F → F → F → F)) (m m' : String) (v : VD)
    (hv : v.vectCoord ≠ "magnetic" ∨ v.locCoord = "magnetic") :
    setOcbTraced lower lib b normal f m v = setOcbTraced lower lib b normal f m' v := by
  unfold setOcbTraced setOcb
  have ht : timesOf { b with normal := normal (methodUsed v m) } v = timesOf { b with normal := normal (methodUsed v m') } v := rfl
  rw [ht]
  simp only [bind, Except.bind]
  cases timesOf { b with normal := normal (methodUsed v m') } v with
  | error e => rfl
  | ok ts =>
    simp only
    have key : ∀ u : VD, u.locCoord = "magnetic" →
        fillCoords { b with normal := normal (methodUsed v m) } u = fillCoords { b with normal := normal (methodUsed v m') } u :=
      fun u hu => fillCoords_same b _ _ (fun k la lt h => hn _ _ k la lt h) u hu
    by_cases hvm : v.vectCoord = "magnetic"
    · rw [if_neg (by simpa using hvm)]
      have hloc : v.locCoord = "magnetic" := by rcases hv with h | h; exact absurd hvm h; exact h
      simp only [key v hloc]
      rfl
    · rw [if_pos hvm]
      cases hu : updateVect lower (lib "ALLOWTRACE") v ts b.hem with
      | error e => rfl
      | ok u =>
        simp only [key u (C120_location lower hl (lib "ALLOWTRACE") v u ts b.hem hu hvm).1]
        rfl

/-- C168, refuted: whatever the object holds, two calls with different tracing methods that both return leave the same
scaled vector behind. -/
theorem C168_results_refuted (lower : String → String) (hl : lower "magnetic" = "magnetic") (lib : String → Aacgm) (b : Bnd)
    (normal : String → Normal) (hn : MagneticSame normal) (f : Option (F → F → F → F)) (m m' : String) (v w w' : VD) (c c' : ℤ)
    (h : setOcbTraced lower lib b normal f m v = .ok (w, c)) (h' : setOcbTraced lower lib b normal f m' v = .ok (w', c')) :
    w.ocbN = w'.ocbN ∧ w.ocbE = w'.ocbE ∧ w.ocbZ = w'.ocbZ ∧ w.ocbMag = w'.ocbMag := by
  by_cases hv : v.vectCoord ≠ "magnetic" ∨ v.locCoord = "magnetic"
  · rw [C168_same_refuted lower hl lib b normal hn f m m' v hv, h'] at h
    cases h
    exact ⟨rfl, rfl, rfl, rfl⟩
  · push Not at hv
    obtain ⟨a1, a2, a3, a4⟩ := C73_geographic_location_refuted _ _ f v w c hv.2 hv.1 h
    obtain ⟨b1, b2, b3, b4⟩ := C73_geographic_location_refuted _ _ f v w' c' hv.2 hv.1 h'
    exact ⟨a1.trans b1.symm, a2.trans b2.symm, a3.trans b3.symm, a4.trans b4.symm⟩

/-- C168, refuted: with as many boundary records as data the method plays no part, whatever the object holds and whatever
`normal_coord` does with it. -/
theorem C168_array_refuted (lower : String → String) (lib : String → Aacgm) (b : Bnd) (normal : String → Normal)
    (f : Option (F → F → F → F)) (m m' : String) (v : VD) (hs : v.ocbInd.shape = v.datInd.shape)
    (ha : v.ocbInd.shape ≠ none) : setOcbTraced lower lib b normal f m v = setOcbTraced lower lib b normal f m' v := by
  have : ∀ x, methodUsed v x = "ALLOWTRACE" := by
    intro x
    unfold methodUsed
    cases hi : v.ocbInd with
    | one k => rw [hi] at ha; exact absurd rfl ha
    | many ks => simp only; rw [if_pos (by rw [← hi]; exact hs)]
  unfold setOcbTraced
  rw [this m, this m']

/-- Two data with two records. -/
example (v : VD) : ({ v with datInd := .many [0, 1], ocbInd := .many [4, 4] } : VD).ocbInd.shape
      = ({ v with datInd := .many [0, 1], ocbInd := .many [4, 4] } : VD).datInd.shape ∧
    ({ v with datInd := .many [0, 1], ocbInd := .many [4, 4] } : VD).ocbInd.shape ≠ none :=
  ⟨rfl, by simp [Arr.shape]⟩

/-- A library that knows nothing. -/
def noLib : Aacgm := { g2a := fun _ _ _ _ _ => (none, none), a2g := fun _ _ _ _ _ => (none, none), mlt2lon := fun _ _ => none }

/-- One vector in geodetic coordinates. -/
noncomputable def tracedVD : VD :=
  { exVD with
    datInd := .one 0, ocbInd := .one 0, lat := .one (some (geoY 1 0).da), lt := .one (some (geoY 1 0).dl)
    height := .one (some 350), vectN := .one (some (geoY 1 0).n), vectE := .one (some (geoY 1 0).e)
    vectZ := .one (some (geoY 1 0).z), locCoord := "geodetic", vectCoord := "geodetic", ocbLat := .one none }

/-- C168, refuted: a vector that can be converted by the method asked for stays unconverted, because another method is
used which fails. -/
theorem C168_unconverted_refuted : ∃ (lower : String → String) (lib : String → Aacgm) (b : Bnd) (normal : String → Normal)
    (v w u : VD) (c : ℤ), MagneticSame normal ∧ timesOf b v = .ok (.one midnight) ∧
      updateVect lower (lib "TRACE") v (.one midnight) b.hem = .ok u ∧ u.vectCoord = "magnetic" ∧
      setOcbTraced lower lib b normal none "TRACE" v = .ok (w, c) ∧ w.vectCoord = "geodetic" := by
  let lib : String → Aacgm := fun m => if m = "TRACE" then geoA else noLib
  let normal : String → Normal := fun _ _ la _ _ _ => .ok (la, .one none, .one none, .one none)
  have hl : ∀ s ∈ ["magnetic", "geocentric", "geodetic"], id s = s := fun _ _ => rfl
  have hG : HoldsGeo geoA 1 tracedVD (.one midnight) 1 (fun _ => geoY 1 0) := by
    refine ⟨.inr rfl, .inl rfl, .inl ⟨_, rfl, fun _ _ => rfl⟩, .inl ⟨_, rfl, fun _ _ => rfl⟩, .inl ⟨_, rfl, fun _ _ => rfl⟩,
      .inl ⟨_, rfl, fun _ _ => rfl⟩, .inl ⟨_, rfl, fun _ _ => rfl⟩, rfl, fun _ => .inl rfl, fun h => absurd rfl h, fun i hi => ?_,
      .inl ⟨rfl, .inl ⟨_, rfl, fun _ _ => rfl⟩, .inl ⟨_, rfl, fun _ _ => rfl⟩, 0, by norm_num, fun lon _ => ⟨_, _, rfl⟩⟩⟩
    simp only [geoA, geoY, Option.map_some]
    norm_num
  obtain ⟨u, gs, u1, u2, -⟩ := updateVect_out id hl geoA 1 tracedVD (.one midnight) 1 (by norm_num) (fun _ => geoY 1 0) hG
    (fun i _ => geoY_good 1 (.inl rfl) 0 (by norm_num))
  obtain ⟨x, x1, -, -, -, -, x2, -⟩ := C119_unknown_partial id hl noLib 1 tracedVD (.one midnight) 1 (by norm_num)
    (fun _ => some (geoY 1 0).da) (fun _ => some (geoY 1 0).dl) (fun _ => some 350) (fun _ => midnight)
    (.inl ⟨_, rfl, fun _ _ => rfl⟩) (.inl ⟨_, rfl, fun _ _ => rfl⟩) (.inl ⟨_, rfl, fun _ _ => rfl⟩)
    (.inl ⟨_, rfl, fun _ _ => rfl⟩) rfl (.inl rfl) (.inr rfl) (by decide) (fun _ _ _ => rfl)
  have x3 := (C120_location id rfl noLib tracedVD x (.one midnight) 1 x1 (by decide)).2.2.2
  have hind : x.ocbInd = .one 0 := by rw [x3]; rfl
  have hlat : x.ocbLat = .one none := by rw [x3]; rfl
  have hmiss : coordsMissing x = true := by
    unfold coordsMissing
    rw [hlat]
    rfl
  let b : Bnd := { exBnd midnight with hem := 1, recInd := 0 }
  have ht : timesOf b tracedVD = .ok (.one midnight) := rfl
  refine ⟨id, lib, b, normal, tracedVD,
    { x with ocbLat := .one none, ocbMlt := .one none, rCorr := .one none }, u, 0, fun _ _ _ _ _ _ => rfl, ht, u1, u2, ?_, ?_⟩
  · unfold setOcbTraced setOcb
    have ht' : timesOf { b with normal := normal (methodUsed tracedVD "TRACE") } tracedVD = .ok (.one midnight) := rfl
    have hx : updateVect id (lib "ALLOWTRACE") tracedVD (.one midnight) 1 = .ok x := x1
    have hf : fillCoords { b with normal := normal (methodUsed tracedVD "TRACE") } x
        = .ok ({ x with ocbLat := .one none, ocbMlt := .one none, rCorr := .one none }, 0) := by
      unfold fillCoords
      rw [if_pos hmiss, hind]
      rfl
    simp only [ht', bind, Except.bind]
    rw [if_pos (by decide)]
    rw [show updateVect id (lib "ALLOWTRACE") tracedVD (.one midnight) b.hem = .ok x from x1]
    simp only [hf]
    rfl
  · rw [← show tracedVD.vectCoord = "geodetic" from rfl, ← x2]

end Ocb.Scale
