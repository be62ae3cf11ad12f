import Verif.Model.Geo
import Verif.Props.Dual
import Verif.Props.VectMag
import Verif.Props.Fetch

/-!
# C166: geographic coordinates of a single boundary

The library is any `A : Scale.Aacgm`.  `MagOf` and `GeoOf` say what it means that the library takes one location to the
other at a given time; the local times and longitudes are related by `SolarTime` (UT plus longitude over 15, up to whole
days).
-/

set_option autoImplicit false

namespace Ocb.Geo

open Ocb.Time Ocb.Coord Ocb.Scale Ocb.Files

/-- `lt` is the solar local time at longitude `lon`, both NaN or both numbers. -/
def SolarF (lon : F) (t : Tod) (lt : F) : Prop :=
  (lon = none ∧ lt = none) ∨ ∃ a b, lon = some a ∧ lt = some b ∧ SolarTime a t b

/-- The name speaks of magnetic coordinates. -/
def NamesMag (coords : Name) : Prop := ∃ a b, coords.map Char.toLower = a ++ "mag".toList ++ b

/-- The name is 'geocentric' in any case. -/
def NamesGeocentric (coords : Name) : Prop := coords.map Char.toLower = "geocentric".toList

instance (coords : Name) : Decidable (NamesGeocentric coords) := by unfold NamesGeocentric; infer_instance

/-- `q` is the magnetic latitude and local time that the library gives for latitude, solar local time and height `p`. -/
def MagOf (A : Aacgm) (geoc : Bool) (t : Tod) (p : F × F × F) (q : F × F) : Prop :=
  ∃ lon, SolarF lon t p.2.1 ∧ (∀ x, lon = some x → -180 ≤ x ∧ x < 360) ∧ q = A.g2a geoc p.1 lon p.2.2 t

/-- `q` is the latitude and solar local time of the place that the library gives for the magnetic location `p` at
height `h`. -/
def GeoOf (A : Aacgm) (geoc : Bool) (t : Tod) (p : F × F) (h : F) (q : F × F) : Prop :=
  ∃ lon, A.a2g geoc p.1 (A.mlt2lon p.2 t) h t = (q.1, lon) ∧ SolarF lon t q.2 ∧ ∀ x, q.2 = some x → 0 ≤ x ∧ x < 24

/-! ### lemmas -/

theorem glon_out (s : ℝ) (t : Tod) : ∃ g, slt2glon s t = .ok g ∧ SolarTime g t s ∧ -180 ≤ g ∧ g < 360 := by
  obtain ⟨g, h1, h2⟩ := solar_glon s t
  obtain ⟨g', -, h3, h4, h5, -⟩ := C05_glon2slt_slt2glon s t
  rw [h1] at h3
  simp only [Except.ok.injEq] at h3
  subst h3
  exact ⟨g, h1, h2, h4, h5⟩

theorem slt_out (g : ℝ) (t : Tod) : ∃ s, glon2slt g t = .ok s ∧ SolarTime g t s ∧ 0 ≤ s ∧ s < 24 := by
  obtain ⟨s, h1, h2⟩ := solar_slt g t
  obtain ⟨s', -, h3, h4, h5, -⟩ := C05_slt2glon_glon2slt g t
  rw [h1] at h3
  simp only [Except.ok.injEq] at h3
  subst h3
  exact ⟨s, h1, h2, h4, h5⟩

theorem toMag_out (A : Aacgm) (geoc : Bool) (t : Tod) (p : F × F × F) :
    ∃ q, toMag A geoc t p = .ok q ∧ MagOf A geoc t p q := by
  obtain ⟨lat, lt, h⟩ := p
  cases lt with
  | none => exact ⟨_, rfl, none, .inl ⟨rfl, rfl⟩, by simp, rfl⟩
  | some s =>
    obtain ⟨g, h1, h2, h3, h4⟩ := glon_out s t
    refine ⟨A.g2a geoc lat (some g) h t, ?_, some g, .inr ⟨g, s, rfl, rfl, h2⟩, ?_, rfl⟩
    · simp only [toMag, liftF, h1]; rfl
    · rintro x hx; cases hx; exact ⟨h3, h4⟩

theorem toGeo_out (A : Aacgm) (geoc : Bool) (t : Tod) (p : F × F) (h : F) :
    ∃ q, toGeo A geoc t p h = .ok q ∧ GeoOf A geoc t p h q := by
  unfold toGeo GeoOf
  generalize A.a2g geoc p.1 (A.mlt2lon p.2 t) h t = o
  obtain ⟨la, lon⟩ := o
  cases lon with
  | none => exact ⟨(la, none), rfl, none, rfl, .inl ⟨rfl, rfl⟩, by simp⟩
  | some g =>
    obtain ⟨s, h1, h2, h3, h4⟩ := slt_out g t
    refine ⟨(la, some s), ?_, some g, rfl, .inr ⟨g, s, rfl, rfl, h2⟩, ?_⟩
    · simp only [liftF, h1]; rfl
    · rintro x hx; cases hx; exact ⟨h3, h4⟩

theorem mapE_rel {α β : Type} (f : α → Except PyErr β) (R : α → β → Prop) (h : ∀ a, ∃ b, f a = .ok b ∧ R a b) (l : List α) :
    ∃ bs, mapE f l = .ok bs ∧ List.Forall₂ R l bs := by
  choose g hg using h
  refine ⟨l.map g, mapE_map fun a _ => (hg a).1, ?_⟩
  rw [List.forall₂_map_right_iff, List.forall₂_same]
  exact fun a _ => (hg a).2

theorem namesMag_iff (coords : Name) : NamesMag coords ↔ sysOf coords = .magnetic := by
  obtain ⟨h1, h2⟩ := Fetch.findAux_pos "mag".toList (Files.lower coords) 0 (by decide)
  have e : NamesMag coords ↔ "mag".toList <:+: Files.lower coords := by
    unfold NamesMag List.IsInfix Files.lower
    exact ⟨fun ⟨a, b, h⟩ => ⟨a, b, h.symm⟩, fun ⟨a, b, h⟩ => ⟨a, b, h.symm⟩⟩
  rw [e]
  unfold sysOf Pysat.find
  by_cases hm : "mag".toList <:+: Files.lower coords
  · have : (0 : ℤ) ≤ _ := (h1 hm).1
    rw [if_neg (not_lt.2 this)]
    exact ⟨fun _ => rfl, fun _ => hm⟩
  · have := h2 hm
    rw [if_pos (by rw [this]; norm_num)]
    split_ifs <;> exact ⟨fun h => absurd h hm, fun h => by cases h⟩

theorem sysOf_geo (coords : Name) (hc : ¬ NamesMag coords) :
    sysOf coords = if NamesGeocentric coords then .geocentric else .geodetic := by
  have h : sysOf coords ≠ .magnetic := fun h => hc ((namesMag_iff coords).2 h)
  unfold sysOf at h ⊢
  by_cases h1 : Pysat.find (Files.lower coords) "mag".toList < 0
  · rw [if_pos h1]; rfl
  · rw [if_neg h1] at h; exact absurd rfl h

theorem normalGeo_geo (A : Aacgm) (B : Rec) (t : Tod) (coords : Name) (hc : ¬ NamesMag coords) (pts : List (F × F × F)) :
    normalGeo A (some (B, t)) coords pts = (do
      let mags ← mapE (toMag A (decide (NamesGeocentric coords)) t) pts
      let out ← normalArr (some B) mags
      pure (out.1, pts.map (·.1))) := by
  unfold normalGeo
  simp only [sysOf_geo coords hc]
  by_cases h : NamesGeocentric coords <;> simp [h]

theorem revertGeo_geo (A : Aacgm) (B : Rec) (t : Tod) (coords : Name) (hc : ¬ NamesMag coords) (pts : List ((F × F × F) × F)) :
    revertGeo A (some (B, t)) coords pts =
      if (pts.map (·.1.1)).all (wrongHem B.hem) then .ok (pts.map fun _ => (none, none))
      else (do
        let mags ← mapE (fun p => revertEntry B p.1.1 p.1.2.1 p.1.2.2) pts
        mapE (fun p => toGeo A (decide (NamesGeocentric coords)) t p.1 p.2) (mags.zip (pts.map (·.2)))) := by
  unfold revertGeo
  simp only [sysOf_geo coords hc]
  by_cases h : NamesGeocentric coords <;> simp [h]

theorem mapE_comp {α β γ : Type} (f : β → Except PyErr γ) (g : α → β) (l : List α) :
    mapE (fun a => f (g a)) l = mapE f (l.map g) := by
  induction l with
  | nil => rfl
  | cons a l ih => simp only [mapE, List.map_cons, ih]

/-! ### C166 -/

/-- C166: `normal_coord` of geographic locations gives the coordinates of the magnetic locations which the library finds
for them at the time of the record, and leaves the caller's latitudes alone. -/
theorem C166_normal (A : Aacgm) (B : Rec) (hB : B.Valid) (t : Tod) (coords : Name) (hc : ¬ NamesMag coords)
    (pts : List (F × F × F)) :
    ∃ qs out lats, List.Forall₂ (MagOf A (decide (NamesGeocentric coords)) t) pts qs ∧
      normalArr (some B) qs = .ok (out, lats) ∧ normalGeo A (some (B, t)) coords pts = .ok (out, pts.map (·.1)) := by
  obtain ⟨qs, h1, h2⟩ := mapE_rel _ _ (toMag_out A (decide (NamesGeocentric coords)) t) pts
  obtain ⟨out, lats, h3, -⟩ := C27_normal_entries B hB qs
  refine ⟨qs, out, lats, h2, h3, ?_⟩
  rw [normalGeo_geo A B t coords hc, h1]
  simp only [bind, Except.bind, h3, pure, Except.pure]

/-- C166: `revert_coord` to geographic coordinates gives the places which the library finds for the magnetic locations
at the time of the record, each at its own height, or NaN everywhere if no location is in the hemisphere. -/
theorem C166_revert (A : Aacgm) (B : Rec) (hB : B.Valid) (t : Tod) (coords : Name) (hc : ¬ NamesMag coords)
    (pts : List ((F × F × F) × F)) :
    ∃ mags geo, revertArr (some B) (pts.map (·.1)) = .ok mags ∧ revertGeo A (some (B, t)) coords pts = .ok geo ∧
      (((∀ p ∈ pts, ∀ a, p.1.1 = some a → ¬ InHem B.hem a) ∧ geo = pts.map fun _ => (none, none)) ∨
        ((∃ p ∈ pts, ∃ a, p.1.1 = some a ∧ InHem B.hem a) ∧
          List.Forall₂ (fun m g => GeoOf A (decide (NamesGeocentric coords)) t m.1 m.2 g) (mags.zip (pts.map (·.2))) geo)) := by
  rw [revertGeo_geo A B t coords hc]
  by_cases hall : (pts.map (·.1.1)).all (wrongHem B.hem) = true
  · refine ⟨(pts.map (·.1)).map fun _ => (none, none), _, ?_, if_pos hall, .inl ⟨?_, rfl⟩⟩
    · unfold revertArr
      simp only [List.map_map, Function.comp_def]
      rw [if_pos (by simpa using hall)]
    · intro p hp a hpa hin
      rw [List.all_eq_true] at hall
      have := hall p.1.1 (List.mem_map.2 ⟨_, hp, rfl⟩)
      rw [(wrongHem_iff B.hem p.1.1).2 ⟨a, hpa, hin⟩] at this
      cases this
  · obtain ⟨mags, h1, -⟩ := mapE_rel _ (RevertOut B) (revertEntry_out B hB) (pts.map (·.1))
    obtain ⟨geo, h2, h3⟩ := mapE_rel (fun p : (F × F) × F => toGeo A (decide (NamesGeocentric coords)) t p.1 p.2) _
      (fun p => toGeo_out A (decide (NamesGeocentric coords)) t p.1 p.2) (mags.zip (pts.map (·.2)))
    refine ⟨mags, geo, ?_, ?_, .inr ⟨?_, h3⟩⟩
    · unfold revertArr
      simp only [List.map_map, Function.comp_def]
      rw [if_neg (by simpa using hall)]
      exact h1
    · rw [if_neg hall]
      have e := mapE_comp (fun p : F × F × F => revertEntry B p.1 p.2.1 p.2.2) (fun p : (F × F × F) × F => p.1) pts
      simp only [bind, Except.bind]
      rw [e, h1]
      exact h2
    · by_contra hne
      apply hall
      rw [List.all_eq_true]
      intro l hl
      obtain ⟨p, hp, rfl⟩ := List.mem_map.1 hl
      by_contra hw
      obtain ⟨a, h4, h5⟩ := (wrongHem_iff B.hem p.1.1).1 (by simpa using hw)
      exact hne ⟨p, hp, a, h4, h5⟩

/-- The library's conversions at time `t` undo each other at height `h`: the place it finds for the magnetic location of a
place is that place, for local times and longitudes up to whole turns. -/
def Inverse (A : Aacgm) (geoc : Bool) (t : Tod) (h : F) : Prop :=
  ∀ lat lon a m m' : ℝ, A.g2a geoc (some lat) (some lon) h t = (some a, some m) → SameHour m' m →
    ∃ lon' : ℝ, A.a2g geoc (some a) (A.mlt2lon (some m') t) h t = (some lat, some lon') ∧ ∃ k : ℤ, lon' = lon + k * 360

theorem solar_back {lon lon' lt lt' : ℝ} {t : Tod} (h1 : SolarTime lon t lt) (h2 : ∃ k : ℤ, lon' = lon + k * 360)
    (h3 : SolarTime lon' t lt') : SameHour lt' lt := by
  obtain ⟨k, hk⟩ := h1
  obtain ⟨l, rfl⟩ := h2
  obtain ⟨m, hm⟩ := h3
  exact ⟨m + l - k, by rw [hm, hk]; push_cast; ring⟩

/-- The place `p` (latitude, solar local time) is known to the library at height `h`: at all longitudes with this local
time it gives a magnetic location with property `P`. -/
def Known (A : Aacgm) (geoc : Bool) (t : Tod) (P : ℝ → ℝ → Prop) (lat lt : ℝ) (h : F) : Prop :=
  ∀ lon, SolarTime lon t lt → ∃ a m, A.g2a geoc (some lat) (some lon) h t = (some a, some m) ∧ P a m

/-- One location there and back. -/
theorem geo_back {A : Aacgm} {geoc : Bool} {t : Tod} {h : F} (hA : Inverse A geoc t h) {lat lt lon a m m' : ℝ}
    (hs : SolarTime lon t lt) (hg : A.g2a geoc (some lat) (some lon) h t = (some a, some m)) (hm : SameHour m' m)
    {q : F × F} (hq : GeoOf A geoc t (some a, some m') h q) :
    ∃ l, q = (some lat, some l) ∧ 0 ≤ l ∧ l < 24 ∧ SameHour l lt := by
  obtain ⟨lon', e, hk⟩ := hA lat lon a m m' hg hm
  obtain ⟨la, l⟩ := q
  obtain ⟨lon2, e2, h1, h2⟩ := hq
  simp only [e, Prod.mk.injEq] at e2
  obtain ⟨rfl, rfl⟩ := e2
  rcases h1 with ⟨h, -⟩ | ⟨x, y, h3, h4, h5⟩
  · cases h
  · cases h3
    simp only at h4
    subst h4
    exact ⟨y, rfl, (h2 y rfl).1, (h2 y rfl).2, solar_back hs hk h5⟩

/-- C166: if the library's conversions undo each other, then `revert_coord` after `normal_coord` leads back to the
geographic latitude and solar local time, for the locations which the library puts into the hemisphere of the
boundary. -/
theorem C166_round_trip (A : Aacgm) (B : Rec) (hB : B.Valid) (t : Tod) (coords : Name) (hc : ¬ NamesMag coords)
    (pts : List (ℝ × ℝ × F))
    (hA : ∀ p ∈ pts, Inverse A (decide (NamesGeocentric coords)) t p.2.2)
    (hin : ∀ p ∈ pts, Known A (decide (NamesGeocentric coords)) t
      (fun a m => InHem B.hem a ∧ |a| < 90 ∧ B.r + B.rf m ≠ 0) p.1 p.2.1 p.2.2) :
    ∃ out lats, normalGeo A (some (B, t)) coords (pts.map fun p => (some p.1, some p.2.1, p.2.2)) = .ok (out, lats) ∧
      ((∃ q ∈ out, ∃ L, q.1 = some L ∧ InHem B.hem L) →
        ∃ back, revertGeo A (some (B, t)) coords (out.zip (pts.map (·.2.2))) = .ok back ∧
          List.Forall₂ (fun p q => ∃ l, q = (some p.1, some l) ∧ 0 ≤ l ∧ l < 24 ∧ SameHour l p.2.1) pts back) := by
  set geoc := decide (NamesGeocentric coords) with hgeoc
  obtain ⟨qs, out, lats, h1, h2, h3⟩ := C166_normal A B hB t coords hc (pts.map fun p => (some p.1, some p.2.1, p.2.2))
  refine ⟨out, _, h3, ?_⟩
  intro hex
  rw [List.forall₂_map_left_iff] at h1
  -- the magnetic locations
  have hq : ∃ ms : List (ℝ × ℝ), qs = ms.map (fun m => (some m.1, some m.2)) ∧
      List.Forall₂ (fun p m => ∃ lon, SolarTime lon t p.2.1 ∧ A.g2a geoc (some p.1) (some lon) p.2.2 t = (some m.1, some m.2) ∧
        InHem B.hem m.1 ∧ |m.1| < 90 ∧ B.r + B.rf m.2 ≠ 0) pts ms := by
    clear h2 h3 hex hA
    induction h1 with
    | nil => exact ⟨[], rfl, .nil⟩
    | @cons p q ps qs h hs ih =>
      obtain ⟨ms, rfl, hms⟩ := ih fun p hp => hin p (List.mem_cons_of_mem _ hp)
      obtain ⟨lon, e1, -, e2⟩ := h
      rcases e1 with ⟨-, e1⟩ | ⟨x, y, rfl, e1, e3⟩
      · cases e1
      · cases e1
        obtain ⟨a, m, e4, e5⟩ := hin p List.mem_cons_self x e3
        refine ⟨(a, m) :: ms, ?_, .cons ⟨x, e3, e4, e5⟩ hms⟩
        rw [List.map_cons, e2]
        exact congrArg (· :: _) e4
  obtain ⟨ms, rfl, hms⟩ := hq
  have hgood : ∀ m ∈ ms, InHem B.hem m.1 ∧ |m.1| ≤ 90 ∧ B.r + B.rf m.2 ≠ 0 := by
    clear h1 h2 h3 hex hA hin
    induction hms with
    | nil => simp
    | cons h hs ih =>
      intro m hm
      rcases List.mem_cons.1 hm with rfl | hm
      · obtain ⟨lon, -, -, a1, a2, a3⟩ := h; exact ⟨a1, a2.le, a3⟩
      · exact ih m hm
  obtain ⟨out', lats', h4, h5⟩ := C25_array_round_trip B hB ms hgood
  rw [h2] at h4
  simp only [Except.ok.injEq, Prod.mk.injEq] at h4
  obtain ⟨rfl, rfl⟩ := h4
  obtain ⟨back, h6, h7⟩ := h5 hex
  have hlen : out.length = pts.length := by
    obtain ⟨o', l', g1, g2⟩ := C27_normal_entries B hB (ms.map fun m => (some m.1, some m.2))
    rw [h2] at g1
    simp only [Except.ok.injEq, Prod.mk.injEq] at g1
    obtain ⟨rfl, rfl⟩ := g1
    rw [← g2.length_eq, List.length_map, hms.length_eq]
  obtain ⟨mags, geo, g1, g2, g3⟩ := C166_revert A B hB t coords hc (out.zip (pts.map (·.2.2)))
  have e1 : (out.zip (pts.map (·.2.2))).map (·.1) = out := by
    rw [List.map_fst_zip]; simp [hlen]
  have e2 : (out.zip (pts.map (·.2.2))).map (·.2) = pts.map (·.2.2) := by
    rw [List.map_snd_zip]; simp [hlen]
  rw [e1, h6] at g1
  simp only [Except.ok.injEq] at g1
  subst g1
  refine ⟨geo, g2, ?_⟩
  rcases g3 with ⟨g3, -⟩ | ⟨-, g3⟩
  · obtain ⟨q, hq1, L, hq2, hq3⟩ := hex
    rw [← e1] at hq1
    obtain ⟨r, hr, rfl⟩ := List.mem_map.1 hq1
    exact absurd hq3 (g3 r hr L hq2)
  · rw [e2] at g3
    clear h1 h2 h3 hex e1 e2 g2 h6 h5 hlen hgood hin
    induction hms generalizing back geo with
    | nil => cases h7; cases g3; exact .nil
    | cons h hs ih =>
      cases h7 with
      | cons b1 bs =>
        simp only [List.map_cons, List.zip_cons_cons] at g3
        cases g3 with
        | cons c1 cs =>
          obtain ⟨lon, a1, a2, -, a3, -⟩ := h
          obtain ⟨m, rfl, -, -, b2⟩ := b1
          exact .cons (geo_back (hA _ List.mem_cons_self) a1 a2 (b2 a3) c1)
            (ih (fun p hp => hA p (List.mem_cons_of_mem _ hp)) _ bs _ cs)

/-- C166: which coordinates a call is about depends only on the name: every name with 'mag' in it, in any case, means
magnetic coordinates, for which height and library play no part; 'geocentric' means geocentric and every other name
means geodetic ones. -/
theorem C166_names (A A' : Aacgm) (rec : Option (Rec × Tod)) (coords coords' : Name)
    (hm : NamesMag coords ↔ NamesMag coords') (hg : NamesGeocentric coords ↔ NamesGeocentric coords')
    (pts pts' : List (F × F × F)) (rpts rpts' : List ((F × F × F) × F))
    (hA : NamesMag coords ∨ (A = A' ∧ pts = pts' ∧ rpts = rpts'))
    (hp : pts.map (fun p => (p.1, p.2.1)) = pts'.map fun p => (p.1, p.2.1)) (hr : rpts.map (·.1) = rpts'.map (·.1)) :
    normalGeo A rec coords pts = normalGeo A' rec coords' pts' ∧ revertGeo A rec coords rpts = revertGeo A' rec coords' rpts' := by
  by_cases h : NamesMag coords
  · have e1 := (namesMag_iff _).1 h
    have e2 := (namesMag_iff _).1 (hm.1 h)
    have l1 : pts.map (·.1) = pts'.map (·.1) := by
      have := congrArg (List.map Prod.fst) hp
      simpa only [List.map_map, Function.comp_def] using this
    have l2 : rpts.map (·.1.1) = rpts'.map (·.1.1) := by
      have := congrArg (List.map Prod.fst) hr
      simpa only [List.map_map, Function.comp_def] using this
    have l3 : (pts.map fun _ => ((none, none, none) : F × F × F)) = pts'.map fun _ => (none, none, none) := by
      have := congrArg (List.map fun _ => ((none, none, none) : F × F × F)) l1
      simpa only [List.map_map, Function.comp_def] using this
    have l4 : (rpts.map fun _ => ((none, none) : F × F)) = rpts'.map fun _ => (none, none) := by
      have := congrArg (List.map fun _ => ((none, none) : F × F)) l2
      simpa only [List.map_map, Function.comp_def] using this
    constructor
    · unfold normalGeo
      rcases rec with - | ⟨B, t⟩
      · simp only [l1, l3]
      · simp only [e1, e2, hp]
    · unfold revertGeo
      rcases rec with - | ⟨B, t⟩
      · simp only [l4]
      · simp only [e1, e2, l2, l4]
        have c1 := mapE_comp (fun p : F × F × F => revertEntry B p.1 p.2.1 p.2.2) (fun p : (F × F × F) × F => p.1) rpts
        have c2 := mapE_comp (fun p : F × F × F => revertEntry B p.1 p.2.1 p.2.2) (fun p : (F × F × F) × F => p.1) rpts'
        rw [c1, c2, hr]
  · rcases hA with hA | ⟨rfl, rfl, rfl⟩
    · exact absurd hA h
    · have e : sysOf coords = sysOf coords' := by
        rw [sysOf_geo _ h, sysOf_geo _ fun h' => h (hm.2 h')]
        by_cases h2 : NamesGeocentric coords
        · rw [if_pos h2, if_pos (hg.1 h2)]
        · rw [if_neg h2, if_neg fun h' => h2 (hg.2 h')]
      exact ⟨by unfold normalGeo; rw [e], by unfold revertGeo; rw [e]⟩

/-! ### examples -/

/-- A library for a field whose poles are those of the rotation: magnetic latitude and longitude are the geographic ones,
magnetic local time is longitude over 15. -/
noncomputable def axial : Aacgm where
  g2a _ lat lon _ _ := (lat, lon.map (· / 15))
  a2g _ lat lon _ _ := (lat, lon)
  mlt2lon m _ := m.map (· * 15)

theorem axial_inverse (geoc : Bool) (t : Tod) (h : F) : Inverse axial geoc t h := by
  intro lat lon a m m' e ⟨k, hk⟩
  simp only [axial, Option.map_some, Prod.mk.injEq, Option.some.injEq] at e
  obtain ⟨rfl, rfl⟩ := e
  exact ⟨m' * 15, rfl, k, by rw [hk]; ring⟩

example : ¬ NamesMag "geodetic".toList ∧ ¬ NamesMag "GeoCentric".toList ∧ NamesGeocentric "GeoCentric".toList ∧
    NamesMag "Magnetic".toList := by
  refine ⟨?_, ?_, by decide, ?_⟩
  · rw [namesMag_iff]; decide
  · rw [namesMag_iff]; decide
  · rw [namesMag_iff]; decide

example (t : Tod) : exRec.Valid ∧ Inverse axial false t (some 350) ∧
    ∀ p ∈ [((80 : ℝ), (6 : ℝ), (some 350 : F)), (70, 13, some 350)],
      Known axial false t (fun a m => InHem exRec.hem a ∧ |a| < 90 ∧ exRec.r + exRec.rf m ≠ 0) p.1 p.2.1 p.2.2 := by
  refine ⟨exRec_valid, axial_inverse _ _ _, ?_⟩
  intro p hp lon _
  refine ⟨p.1, lon / 15, rfl, ?_⟩
  simp only [List.mem_cons, List.not_mem_nil, or_false] at hp
  rcases hp with rfl | rfl
  · exact ⟨(sign_hem 80 (by norm_num)).1, by rw [abs_lt]; constructor <;> norm_num, by norm_num [exRec]⟩
  · exact ⟨(sign_hem 70 (by norm_num)).1, by rw [abs_lt]; constructor <;> norm_num, by norm_num [exRec]⟩

end Ocb.Geo
