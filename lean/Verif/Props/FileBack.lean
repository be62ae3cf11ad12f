import Verif.Props.SaveAll
import Verif.Props.SmagOutMore

/-!
# From the input file of an instrument to the output file and back
-/

set_option autoImplicit false

namespace Ocb.FileBack

open Ocb.Files (Name)
open Ocb.Vort
open Ocb.Text
open Ocb.OutText
open Ocb.SaveAll
open Ocb.Dbl (toDouble toDouble_nearest IsDouble)

/-! ### C204: the kinds of values in the columns of a SuperMAG table -/

/-- A word: not empty and without white space -/
def Word (w : Name) : Prop := w ≠ [] ∧ ∀ c ∈ w, isWs c = false

theorem words_word : ∀ (l a : Name), (∀ c ∈ a, isWs c = false) → ∀ w ∈ Smag.wordsAux l a, Word w
  | [], a, h => by
    intro w hw
    rw [Smag.wordsAux] at hw
    split at hw
    · simp at hw
    · rename_i ha
      rw [List.mem_singleton] at hw
      subst hw
      exact ⟨by simpa using ha, fun c hc => h c (List.mem_reverse.1 hc)⟩
  | c :: l, a, h => by
    intro w hw
    rw [Smag.wordsAux] at hw
    split at hw
    · split at hw
      · exact words_word l [] (by simp) w hw
      · rename_i ha
        rcases List.mem_cons.1 hw with rfl | hw
        · exact ⟨by simpa using ha, fun c hc => h c (List.mem_reverse.1 hc)⟩
        · exact words_word l [] (by simp) w hw
    · rename_i hc
      refine words_word l (c :: a) ?_ w hw
      intro x hx
      rcases List.mem_cons.1 hx with rfl | hx
      · simpa using hc
      · exact h x hx

/-- The columns of whole numbers -/
def intNames : List Name :=
  ["YEAR".toList, "MONTH".toList, "DAY".toList, "HOUR".toList, "MIN".toList, "SEC".toList, "NST".toList, "SML".toList,
   "SMU".toList]

/-- The columns of numbers -/
def numNames : List Name :=
  ["BN".toList, "BE".toList, "BZ".toList, "MLT".toList, "MLAT".toList, "DEC".toList, "SZA".toList]

/-- A value in the column of its kind; numbers are conversions of words of the file. -/
def Fits (float : Conv) (k : Name) : Smag.Val → Prop
  | .time _ => k = "DATETIME".toList
  | .txt w => k = "STID".toList ∧ Word w
  | .int _ => k ∈ intNames
  | .num x => k ∈ numNames ∧ ∃ w, Word w ∧ float w = some x

theorem station_fits {float : Conv} {ws : List Name} {cols : List (Name × Smag.Val)} (hw : ∀ w ∈ ws, Word w)
    (h : Smag.stationCols float ws = .ok cols) : ∀ p ∈ cols, Fits float p.1 p.2 := by
  have wd : ∀ {i : ℕ} {x : F}, Smag.word float ws i = .ok x → ∃ w, Word w ∧ float w = some x := by
    intro i x h
    unfold Smag.word at h
    split at h
    · simp at h
    · rename_i w e
      refine ⟨w, hw w (List.mem_of_getElem? e), ?_⟩
      unfold toFloat at h
      split at h
      · rename_i y e'
        rw [Except.ok.injEq] at h
        rw [e', h]
      · simp at h
  unfold Smag.stationCols at h
  split at h
  · simp at h
  rename_i id e0
  simp only [bind, Except.bind] at h
  split at h
  · simp at h
  rename_i e1
  split at h
  · simp at h
  rename_i e2
  split at h
  · simp at h
  rename_i e3
  split at h
  · simp at h
  rename_i e4
  split at h
  · simp at h
  rename_i e5
  split at h
  · simp at h
  rename_i e6
  split at h
  · simp at h
  rename_i e7
  simp only [pure, Except.pure, Except.ok.injEq] at h
  subst h
  intro p hp
  simp only [List.mem_cons, List.not_mem_nil, or_false] at hp
  rcases hp with rfl | rfl | rfl | rfl | rfl | rfl | rfl | rfl
  · exact ⟨rfl, hw _ (List.mem_of_getElem? e0)⟩
  · exact ⟨(show "BN".toList ∈ numNames by decide), wd e1⟩
  · exact ⟨(show "BE".toList ∈ numNames by decide), wd e2⟩
  · exact ⟨(show "BZ".toList ∈ numNames by decide), wd e3⟩
  · exact ⟨(show "MLT".toList ∈ numNames by decide), wd e4⟩
  · exact ⟨(show "MLAT".toList ∈ numNames by decide), wd e5⟩
  · exact ⟨(show "DEC".toList ∈ numNames by decide), wd e6⟩
  · exact ⟨(show "SZA".toList ∈ numNames by decide), wd e7⟩

theorem time_fits (float : Conv) (c : Smag.Cur) : ∀ p ∈ Smag.timeCols c, Fits float p.1 p.2 := by
  intro p hp
  simp only [Smag.timeCols, List.mem_cons, List.not_mem_nil, or_false] at hp
  rcases hp with rfl | rfl | rfl | rfl | rfl | rfl | rfl | rfl
  · exact (show "YEAR".toList ∈ intNames by decide)
  · exact (show "MONTH".toList ∈ intNames by decide)
  · exact (show "DAY".toList ∈ intNames by decide)
  · exact (show "HOUR".toList ∈ intNames by decide)
  · exact (show "MIN".toList ∈ intNames by decide)
  · exact (show "SEC".toList ∈ intNames by decide)
  · exact rfl
  · exact (show "NST".toList ∈ intNames by decide)

/-- What holds while the lines are read, if the index lines have the known names -/
structure KInv (float : Conv) (s : Smag.St) : Prop where
  even : EInv s
  fits : ∀ k, ∀ v ∈ s.out k, Fits float k v

theorem kstep_inv {float : Conv} {s s' : Smag.St} {l : Name} (h : Smag.step float s l = .ok s') (hi : KInv float s)
    (hl : ∀ k v, Smag.words l = [k, v] → k = "SMU".toList ∨ k = "SML".toList) : KInv float s' := by
  refine ⟨estep_inv h hi.even hl, ?_⟩
  unfold Smag.step at h
  split at h
  · split at h
    · simp at h
    · rw [Except.ok.injEq] at h
      subst h
      exact hi.fits
  · rename_i c n hc
    split at h
    · split at h
      · simp at h
      · rw [Except.ok.injEq] at h
        subst h
        exact hi.fits
    · unfold Smag.stationLine at h
      split at h
      · split at h
        · simp at h
        · rename_i cols e
          have ht : ∀ k, ∀ v ∈ Smag.put (Smag.timeCols c ++ s.ind.map (fun p => (p.1, .int p.2)) ++ cols) s.out k, Fits float k v := by
            intro k v hv
            rw [put_all, List.mem_append] at hv
            rcases hv with hv | hv
            · exact hi.fits k v hv
            · obtain ⟨p, hp, rfl⟩ := List.mem_map.1 hv
              obtain ⟨hp, hpk⟩ := List.mem_filter.1 hp
              have hpk : p.1 = k := eq_of_beq hpk
              rw [← hpk]
              rw [List.mem_append, List.mem_append] at hp
              rcases hp with (hp | hp) | hp
              · exact time_fits float c p hp
              · obtain ⟨q, hq, rfl⟩ := List.mem_map.1 hp
                have := List.mem_map_of_mem (f := Prod.fst) hq
                rw [hi.even.ind] at this
                show q.1 ∈ intNames
                rcases List.mem_cons.1 this with h | h
                · rw [h]; decide
                · rw [List.mem_singleton.1 h]; decide
              · exact station_fits (words_word l [] (by simp)) e p hp
          simp only at h
          split at h
          · rw [Except.ok.injEq] at h
            subst h
            exact ht
          · rw [Except.ok.injEq] at h
            subst h
            exact ht
      · simp at h

theorem krun_inv {float : Conv} : ∀ {ls : List Name} {s s' : Smag.St}, Smag.run float s ls = .ok s' → KInv float s →
    (∀ l ∈ ls, ∀ k v, Smag.words l = [k, v] → k = "SMU".toList ∨ k = "SML".toList) → KInv float s'
  | [], s, s', h, hi, _ => by
    rw [Smag.run, Except.ok.injEq] at h
    rw [← h]
    exact hi
  | l :: ls, s, s', h, hi, hl => by
    rw [Smag.run] at h
    split at h
    · simp at h
    · rename_i s1 e
      exact krun_inv h (kstep_inv e hi (hl l (by simp))) fun x hx => hl x (List.mem_cons_of_mem _ hx)

/-- C204 as far as it holds for SuperMAG files: if the index lines have the known names, then `DATETIME` holds
times, `STID` words, the columns of the date and the indices whole numbers and the other columns NaN or numbers that are
conversions of words. -/
theorem C204_kinds_partial {float : Conv} {lines hd : List Name} {t : Smag.Table} (h : Smag.load float lines = .ok (hd, some t))
    (hl : Indexed lines) : (∀ v ∈ t "DATETIME".toList, ∃ x, v = .time x) ∧ (∀ v ∈ t "STID".toList, ∃ w, v = .txt w ∧ Word w) ∧
    (∀ k ∈ intNames, ∀ v ∈ t k, ∃ z, v = .int z) ∧
    ∀ k ∈ numNames, ∀ v ∈ t k, v = .num none ∨ ∃ w x, Word w ∧ float w = some x ∧ v = .num x := by
  obtain ⟨ls, s, h1, h2, rfl⟩ := smag_load h
  obtain ⟨pre, r, h3, h4⟩ := header_split h1
  have hi := krun_inv h2 ⟨⟨rfl, by simp⟩, by simp⟩ (hl pre r ls h3 h4)
  have d1 : "DATETIME".toList ≠ "STID".toList := by decide
  have d2 : "DATETIME".toList ∉ intNames := by decide
  have d3 : "DATETIME".toList ∉ numNames := by decide
  have d4 : "STID".toList ∉ intNames := by decide
  have d5 : "STID".toList ∉ numNames := by decide
  have d6 : ∀ k ∈ intNames, k ∉ numNames ∧ Smag.nanKeys.contains k = false := by decide
  refine ⟨?_, ?_, ?_, ?_⟩
  · intro v hv
    simp only [show Smag.nanKeys.contains "DATETIME".toList = false by decide, Bool.false_eq_true, if_false] at hv
    have := hi.fits _ v hv
    cases v with
    | time x => exact ⟨x, rfl⟩
    | txt w => exact absurd this.1 d1
    | int z => exact absurd this d2
    | num x => exact absurd this.1 d3
  · intro v hv
    simp only [show Smag.nanKeys.contains "STID".toList = false by decide, Bool.false_eq_true, if_false] at hv
    have := hi.fits _ v hv
    cases v with
    | time x => exact absurd (show "STID".toList = "DATETIME".toList from this).symm d1
    | txt w => exact ⟨w, rfl, this.2⟩
    | int z => exact absurd this d4
    | num x => exact absurd this.1 d5
  · intro k hk v hv
    simp only [(d6 k hk).2, Bool.false_eq_true, if_false] at hv
    have := hi.fits _ v hv
    cases v with
    | time x => exact absurd (show k = _ from this) (fun h => d2 (h ▸ hk))
    | txt w => exact absurd this.1 (fun h => d4 (h ▸ hk))
    | int z => exact ⟨z, rfl⟩
    | num x => exact absurd this.1 (d6 k hk).1
  · intro k hk
    have key : ∀ v ∈ s.out k, ∃ w x, Word w ∧ float w = some x ∧ v = .num x := by
      intro v hv
      have := hi.fits _ v hv
      cases v with
      | time x => exact absurd (show k = _ from this) (fun h => d3 (h ▸ hk))
      | txt w => exact absurd this.1 (fun h => d5 (h ▸ hk))
      | int z => exact absurd hk (d6 k this).1
      | num x => obtain ⟨-, w, h1, h2⟩ := this; exact ⟨w, x, h1, h2, rfl⟩
    intro v hv
    simp only at hv
    split at hv
    · obtain ⟨u, hu, rfl⟩ := List.mem_map.1 hv
      obtain ⟨w, x, h1, h2, rfl⟩ := key u hu
      cases x with
      | none => exact .inl rfl
      | some x =>
        rw [Smag.unfill]
        split
        · exact .inl rfl
        · exact .inr ⟨w, _, h1, h2, rfl⟩
    · exact .inr (key v hv)

/-- The columns that the conversion works on -/
theorem table_even {float : Conv} {lines hd : List Name} {t : Smag.Table} (h : Smag.load float lines = .ok (hd, some t))
    (hl : Indexed lines) : t "DATETIME".toList = (SmagOut.ofTable t).time.map .time ∧ t "STID".toList = (SmagOut.ofTable t).id.map .txt ∧
    t "SML".toList = (SmagOut.ofTable t).sml.map .int ∧ t "SMU".toList = (SmagOut.ofTable t).smu.map .int ∧
    t "SZA".toList = (SmagOut.ofTable t).sza.map .num ∧ t "MLAT".toList = (SmagOut.ofTable t).mlat.map .num ∧
    t "MLT".toList = (SmagOut.ofTable t).mlt.map .num ∧ t "BN".toList = (SmagOut.ofTable t).bn.map .num ∧
    t "BE".toList = (SmagOut.ofTable t).be.map .num ∧ t "BZ".toList = (SmagOut.ofTable t).bz.map .num ∧
    SmagOut.Even (SmagOut.ofTable t) := by
  obtain ⟨k1, k2, k3, k4⟩ := C204_kinds_partial h hl
  have e1 : ∀ {l : List Smag.Val}, (∀ v ∈ l, ∃ x, v = .time x) → l = (SmagOut.stamps l).map .time := by
    intro l
    induction l with
    | nil => intro _; rfl
    | cons v l ih =>
      intro h
      obtain ⟨x, rfl⟩ := h v (by simp)
      have := ih fun v hv => h v (List.mem_cons_of_mem _ hv)
      exact congrArg (_ :: ·) this
  have e2 : ∀ {l : List Smag.Val}, (∀ v ∈ l, ∃ x, v = .txt x) → l = (SmagOut.txts l).map .txt := by
    intro l
    induction l with
    | nil => intro _; rfl
    | cons v l ih =>
      intro h
      obtain ⟨x, rfl⟩ := h v (by simp)
      have := ih fun v hv => h v (List.mem_cons_of_mem _ hv)
      exact congrArg (_ :: ·) this
  have e3 : ∀ {l : List Smag.Val}, (∀ v ∈ l, ∃ x, v = .int x) → l = (SmagOut.ints l).map .int := by
    intro l
    induction l with
    | nil => intro _; rfl
    | cons v l ih =>
      intro h
      obtain ⟨x, rfl⟩ := h v (by simp)
      have := ih fun v hv => h v (List.mem_cons_of_mem _ hv)
      exact congrArg (_ :: ·) this
  have e4 : ∀ {l : List Smag.Val}, (∀ v ∈ l, ∃ x, v = .num x) → l = (SmagOut.nums l).map .num := by
    intro l
    induction l with
    | nil => intro _; rfl
    | cons v l ih =>
      intro h
      obtain ⟨x, rfl⟩ := h v (by simp)
      have := ih fun v hv => h v (List.mem_cons_of_mem _ hv)
      exact congrArg (_ :: ·) this
  have n4 : ∀ k ∈ numNames, ∀ v ∈ t k, ∃ x, v = .num x := by
    intro k hk v hv
    rcases k4 k hk v hv with h | ⟨w, x, -, -, h⟩
    · exact ⟨_, h⟩
    · exact ⟨_, h⟩
  have a1 := e1 k1
  have a2 := e2 fun v hv => (k2 v hv).imp fun w h => h.1
  have a3 := e3 (k3 "SML".toList (by decide))
  have a4 := e3 (k3 "SMU".toList (by decide))
  have a5 := e4 (n4 "SZA".toList (by decide))
  have a6 := e4 (n4 "MLAT".toList (by decide))
  have a7 := e4 (n4 "MLT".toList (by decide))
  have a8 := e4 (n4 "BN".toList (by decide))
  have a9 := e4 (n4 "BE".toList (by decide))
  have a10 := e4 (n4 "BZ".toList (by decide))
  have len := C204_even_partial h hl
  have tr : ∀ {α : Type} {f : α → Smag.Val} {l : List α} {k : Name}, k ∈ Smag.outKeys → t k = l.map f →
      l.length = (SmagOut.ofTable t).time.length := by
    intro α f l k hk e
    have := len k hk
    rw [e, a1, List.length_map, List.length_map] at this
    exact this
  exact ⟨a1, a2, a3, a4, a5, a6, a7, a8, a9, a10, tr (by decide) a2, tr (by decide) a3, tr (by decide) a4, tr (by decide) a5,
    tr (by decide) a6, tr (by decide) a7, tr (by decide) a8, tr (by decide) a9, tr (by decide) a10⟩

/-! ### C207 -/

/-- C207: for any vorticity file and boundary, without `save_all`, if a file of at least two rows is written, then the file is read back by `load_ascii_data`, and there are increasing positions in the input table,
and records of the boundary that never go back, such that the times are those of the table, and the other columns show, to
their digits, the location that the boundary gives and the scaled vorticity. -/
theorem C207_vort {float : Conv} (hf : ReadsFloat float) {lines : List Line} {given : Option VortOut.Bound}
    {make : ℤ → ℤ → ℤ → Except PyErr VortOut.Bound} {hem tol : ℤ} {scale : VortOut.Scale} {rows : List VortOut.Row}
    (h : VortOut.vort2ascii float lines given make hem tol false scale = .ok (.file rows)) (htol : 0 ≤ tol)
    (hb : ∀ t b h, VortOut.setup given make hem tol t = .ok (b, h) → -1 ≤ b.cursor ∧ ∃ good, Cycle.IsBoundary b.cyc good)
    (h2 : 2 ≤ rows.length) {f : Ascii.File}
    (hg : f.good = true) (hl : f.lines = vortLines rows) (hr : f.rows = (f.lines.drop 1).map Smag.words) :
    ∃ t b hm out, ∃ idx : List (ℕ × ℤ), Vort.load float false lines = .ok (some t) ∧ VortOut.setup given make hem tol t = .ok (b, hm) ∧
      Ascii.load float (backArgs []) f = .ok out ∧ idx.Pairwise (fun p q => p.1 < q.1 ∧ p.2 ≤ q.2) ∧
      List.Forall₂ (fun p v => ∃ d, t.dtime[p.1]? = some d ∧ v = .time d) idx (out.out timeName) ∧
      List.Forall₂ (fun p v => ∃ lat mlt o, (t.col "CENTRE_MLAT")[p.1]? = some lat ∧ (t.col "MLT")[p.1]? = some mlt ∧
        b.place p.2 lat mlt = .ok o ∧ Near 2 o.1 v) idx (out.out "OCB_LAT".toList) ∧
      List.Forall₂ (fun p v => ∃ lat mlt o, (t.col "CENTRE_MLAT")[p.1]? = some lat ∧ (t.col "MLT")[p.1]? = some mlt ∧
        b.place p.2 lat mlt = .ok o ∧ Near 6 o.2.1 v) idx (out.out "OCB_MLT".toList) ∧
      (scale = none → List.Forall₂ (fun p v => ∃ x, (t.col "VORTICITY")[p.1]? = some x ∧ Near 6 x v) idx
        (out.out "NORM_VORT".toList)) := by
  unfold VortOut.vort2ascii at h
  simp only [bind, Except.bind] at h
  split at h
  · simp at h
  rename_i ot e1
  split at h
  · simp at h
  rename_i t
  split at h
  · simp at h
  rename_i p e2
  obtain ⟨b, hm⟩ := p
  obtain ⟨hc, good, hbd⟩ := hb t b hm e2
  obtain ⟨t1, t2, t3, t4, t5⟩ := C204_vort e1
  obtain ⟨l, l1, l2, -⟩ := VortOut.C107_rows b hbd hc hm tol htol scale false t t1 rows h
  have hclock : ∀ r ∈ rows, Clock r.time := by
    intro r hr
    rw [List.forall₂_iff_get] at l2
    obtain ⟨n, hn, rfl⟩ := List.getElem_of_mem hr
    have hp := l2.2 n (l2.1 ▸ hn) hn
    obtain ⟨a1, a2, a3⟩ := t3 _ (List.mem_of_getElem? hp.time)
    exact ⟨a1, a2, a3⟩
  obtain ⟨out, o1, -, o3, o4, o5, o6⟩ := C196_vort_partial hf h2 hclock hg hl hr
  have lift : ∀ {P : ℕ × ℤ → Ascii.Val → Prop} {Q : VortOut.Row → Ascii.Val → Prop} {vs : List Ascii.Val},
      List.Forall₂ Q rows vs → (∀ p r v, VortOut.RowOf b scale false t p.1 p.2 r → Q r v → P p v) → List.Forall₂ P l vs := by
    intro P Q vs hq hP
    rw [List.forall₂_iff_get] at l2 hq ⊢
    refine ⟨l2.1.trans hq.1, fun n n1 n2 => hP _ _ _ (l2.2 n n1 (l2.1 ▸ n1)) (hq.2 n (l2.1 ▸ n1) n2)⟩
  refine ⟨t, b, hm, out, l, e1, e2, o1, l1, ?_, lift o4 ?_, lift o5 ?_, fun hs => lift o6 ?_⟩
  · rw [o3]
    rw [List.forall₂_map_right_iff]
    exact l2.imp fun p r hp => ⟨_, hp.time, rfl⟩
  · intro p r v hp hv
    obtain ⟨lat, mlt, x, c, q, h1, h2, -, h3, -⟩ := hp.values
    exact ⟨lat, mlt, _, h1, h2, h3, hv⟩
  · intro p r v hp hv
    obtain ⟨lat, mlt, x, c, q, h1, h2, -, h3, -⟩ := hp.values
    exact ⟨lat, mlt, _, h1, h2, h3, hv⟩
  · intro p r v hp hv
    obtain ⟨lat, mlt, x, c, q, -, -, h1, -, -, h2, -⟩ := hp.values
    exact ⟨x, h1, h2 hs ▸ hv⟩

/-- C207: for any SuperMAG file whose index lines have the known names, and any boundary, if a file of at
least two rows is written, with identifiers of up to 50 letters, then the file is read back by
`load_ascii_data`, and there are different stations of the input table such that times and identifiers are theirs, the indices
are the nearest doubles of theirs, and zenith angle, local time and components show theirs to two digits.  The stations are
in the order of the file if its times are in order. -/
theorem C207_smag {float : Conv} (hf : ReadsFloat float) {lines : List Name}
    (hi : Indexed lines) {given : Option SmagOut.Bound}
    {make : ℤ → ℤ → ℤ → Except PyErr SmagOut.Bound} {hem tol : ℤ} {scale : Option (F → F → F → F)} {rows : List SmagOut.Row}
    (h : SmagOut.smag2ascii float lines given make hem tol scale = .ok (.file rows)) (htol : 0 ≤ tol)
    (hb : ∀ m b h, SmagOut.setup given make hem tol m = .ok (b, h) → -1 ≤ b.cursor ∧ ∃ good, Cycle.IsBoundary b.cyc good)
    (h2 : 2 ≤ rows.length) (h50 : ∀ r ∈ rows, r.id.length ≤ 50)
    {f : Ascii.File} (hg : f.good = true) (hl : f.lines = smagLines rows) (hr : f.rows = (f.lines.drop 1).map Smag.words) :
    ∃ hd t out, ∃ idx : List ℕ, Smag.load float lines = .ok (hd, some t) ∧ Ascii.load float (backArgs [3]) f = .ok out ∧ idx.Nodup ∧
      ((SmagOut.ofTable t).time.Pairwise (· ≤ ·) → idx.Pairwise (· < ·)) ∧
      List.Forall₂ (fun i v => ∃ d, (t "DATETIME".toList)[i]? = some (.time d) ∧ v = .time d) idx (out.out timeName) ∧
      List.Forall₂ (fun i v => ∃ w, (t "STID".toList)[i]? = some (.txt w) ∧ v = .txt w) idx (out.out "STID".toList) ∧
      (∀ k ∈ ["SML".toList, "SMU".toList],
        List.Forall₂ (fun i v => ∃ z, (t k)[i]? = some (.int z) ∧ v = .num (some (toDouble z))) idx (out.out k)) ∧
      ∀ k ∈ ["SZA".toList, "MLT".toList, "BN".toList, "BE".toList, "BZ".toList],
        List.Forall₂ (fun i v => ∃ x, (t k)[i]? = some (.num x) ∧ Near 2 x v) idx (out.out k) := by
  unfold SmagOut.smag2ascii at h
  simp only [bind, Except.bind] at h
  split at h
  · simp at h
  rename_i p e1
  split at h
  · split at h
    · simp at h
    · split at h <;> simp at h
  rename_i hd t
  split at h
  · simp at h
  rename_i p e2
  obtain ⟨b, hm⟩ := p
  obtain ⟨hc, good, hbd⟩ := hb _ b hm e2
  obtain ⟨a1, a2, a3, a4, a5, a6, a7, a8, a9, a10, ev⟩ := table_even e1 hi
  obtain ⟨l, hp, l2⟩ := SmagOut.C110_rows b hbd hc hm tol htol scale _ ev rows h
  have hrow : ∀ r ∈ rows, ∃ i, SmagOut.Copied (SmagOut.ofTable t) i r := by
    intro r hr
    rw [List.forall₂_iff_get] at l2
    obtain ⟨n, hn, rfl⟩ := List.getElem_of_mem hr
    exact ⟨_, (l2.2 n (l2.1 ▸ hn) hn).1⟩
  have hclock : ∀ r ∈ rows, Clock r.time := by
    intro r hr
    obtain ⟨i, hi⟩ := hrow r hr
    have hx : Smag.Val.time r.time ∈ t "DATETIME".toList := by
      rw [a1]
      exact List.mem_map_of_mem (List.mem_of_getElem? hi.time)
    obtain ⟨b1, b2, b3⟩ := C204_smag e1 _ _ hx
    exact ⟨b1, b2, b3⟩
  have hid : ∀ r ∈ rows, r.id ≠ [] ∧ ∀ c ∈ r.id, isWs c = false := by
    intro r hr
    obtain ⟨i, hi'⟩ := hrow r hr
    have hx : Smag.Val.txt r.id ∈ t "STID".toList := by
      rw [a2]
      exact List.mem_map_of_mem (List.mem_of_getElem? hi'.id)
    obtain ⟨w, h1, h2⟩ := (C204_kinds_partial e1 hi).2.1 _ hx
    rw [Smag.Val.txt.injEq] at h1
    rw [h1]
    exact h2
  obtain ⟨out, o1, -, o3, o4, -, o5, o6, o7⟩ := C197_smag_partial hf h2 hclock hid h50 hg hl hr
  have lift : ∀ {P : ℕ → Ascii.Val → Prop} {Q : SmagOut.Row → Ascii.Val → Prop} {vs : List Ascii.Val},
      List.Forall₂ Q rows vs → (∀ i r v, SmagOut.Copied (SmagOut.ofTable t) i r → Q r v → P i v) →
      List.Forall₂ P (l.map Prod.fst) vs := by
    intro P Q vs hq hP
    rw [List.forall₂_map_left_iff]
    rw [List.forall₂_iff_get] at l2 hq ⊢
    refine ⟨l2.1.trans hq.1, fun n n1 n2 => hP _ _ _ (l2.2 n n1 (l2.1 ▸ n1)).1 (hq.2 n (l2.1 ▸ n1) n2)⟩
  have lift' : ∀ {P : ℕ → Ascii.Val → Prop} {g : SmagOut.Row → Ascii.Val},
      (∀ i r, SmagOut.Copied (SmagOut.ofTable t) i r → P i (g r)) → List.Forall₂ P (l.map Prod.fst) (rows.map g) := by
    intro P g hP
    refine lift (Q := fun r v => v = g r) ?_ (fun i r v hc hv => hv ▸ hP i r hc)
    rw [List.forall₂_map_right_iff]
    exact List.forall₂_same.2 fun _ _ => rfl
  have at' : ∀ {α : Type} {c : List Smag.Val} {g : α → Smag.Val} {m : List α} {i : ℕ} {x : α}, c = m.map g → m[i]? = some x →
      c[i]? = some (g x) := by
    intro α c g m i x e h
    rw [e, List.getElem?_map, h]
    rfl
  refine ⟨hd, t, out, l.map Prod.fst, e1, o1, hp.once, ?_, ?_, ?_, ?_, ?_⟩
  · intro ht
    rw [List.pairwise_map]
    exact hp.order ht
  · rw [o3]
    exact lift' fun i r hc => ⟨_, at' a1 hc.time, rfl⟩
  · rw [o4]
    exact lift' fun i r hc => ⟨_, at' a2 hc.id, rfl⟩
  · intro k hk
    simp only [List.mem_cons, List.not_mem_nil, or_false] at hk
    rcases hk with rfl | rfl
    · rw [o5]
      exact lift' fun i r hc => ⟨_, at' a3 hc.sml, rfl⟩
    · rw [o6]
      exact lift' fun i r hc => ⟨_, at' a4 hc.smu, rfl⟩
  · intro k hk
    simp only [List.mem_cons, List.not_mem_nil, or_false] at hk
    rcases hk with rfl | rfl | rfl | rfl | rfl
    · exact lift (o7 ("SZA".toList, _) (by simp)) fun i r v hc hv => ⟨_, at' a5 hc.sza, hv⟩
    · exact lift (o7 ("MLT".toList, _) (by simp)) fun i r v hc hv => ⟨_, at' a7 hc.lt, hv⟩
    · exact lift (o7 ("BN".toList, _) (by simp)) fun i r v hc hv => ⟨_, at' a8 hc.n, hv⟩
    · exact lift (o7 ("BE".toList, _) (by simp)) fun i r v hc hv => ⟨_, at' a9 hc.e, hv⟩
    · exact lift (o7 ("BZ".toList, _) (by simp)) fun i r v hc hv => ⟨_, at' a10 hc.z, hv⟩

/-! ### Examples -/

/-- The hypotheses of C207 are met: the entries get their rows, and the file with them is read back. -/
example : ∃ rows, VortOut.vort2ascii exFloat exVort.lines (some exBound) (fun _ _ _ => .error .ioError) 1 60 false none =
      .ok (.file rows) ∧ rows.length = 2 ∧ ∃ t out, ∃ idx : List (ℕ × ℤ), Vort.load exFloat false exVort.lines = .ok (some t) ∧
      Ascii.load exFloat (backArgs []) ⟨true, vortLines rows, ((vortLines rows).drop 1).map Smag.words⟩ = .ok out ∧
      List.Forall₂ (fun p v => ∃ d, t.dtime[p.1]? = some d ∧ v = .time d) idx (out.out timeName) := by
  obtain ⟨rows, hrows, hlen⟩ := exVort_file false
  refine ⟨rows, hrows, hlen, ?_⟩
  obtain ⟨t, b, hm, out, idx, u1, -, u2, -, u3, -⟩ := C207_vort exFloat_reads hrows (by norm_num) exBound_setup (by rw [hlen])
    (f := ⟨true, vortLines rows, ((vortLines rows).drop 1).map Smag.words⟩) rfl rfl rfl
  exact ⟨t, out, idx, u1, u2, u3⟩

/-- Two stations on 5 January 2002 at 3 h -/
def exSmag : Smag.Block :=
  ⟨"2002 1 5 3 0 0 2\n".toList, ⟨2002, 1, 5, 3, 0, 0, 2⟩, [("SML\t-120\n".toList, "SML".toList, -120)],
    ["THL 10 3 1 14 85 4 60\n".toList, "NAQ 1 2 3 4 66 6 7\n".toList]⟩

/-- The lines of a file with them -/
def exLines : List Name :=
  ["File description\n".toList] ++ (Smag.rule ++ "\n".toList) :: [exSmag].flatMap Smag.Block.lines

theorem exSmag_fine : exSmag.Fine exFloat := by
  refine ⟨⟨"2002".toList, "1".toList, "5".toList, "3".toList, "0".toList, "0".toList, "2".toList, by decide, rfl, rfl, rfl,
    rfl, rfl, rfl, rfl⟩, by decide, by decide, by decide, by decide, ?_, ?_⟩
  · intro p hp
    obtain rfl := List.mem_singleton.1 hp
    exact ⟨.inl rfl, "-120".toList, by decide, rfl⟩
  · have texts : ∀ l ∈ exSmag.stations, 8 ≤ (Smag.words l).length ∧ ∀ i ∈ [1, 2, 3, 4, 5, 6, 7],
        ∃ n ∈ [10, 3, 1, 14, 85, 4, 60, 2, 66, 6, 7], Smag.text l i = dec n := by decide +kernel
    intro l hl
    obtain ⟨h1, h2⟩ := texts l hl
    refine ⟨h1, fun i hi1 hi2 => ?_⟩
    obtain ⟨n, -, hn⟩ := h2 i (by simp; omega)
    exact ⟨_, by rw [hn]; exact exFloat_dec n⟩

/-- A boundary with one record at that time -/
noncomputable def exSBound (t : Time.Tod) : SmagOut.Bound :=
  SmagOut.single [Coord.exRec] 1 74 [t] (Cycle.Bnd.cycler ⟨[exStart], [.fin 1], [], .fin 0, .pinf⟩ none none []) 0

theorem exFloat_small {n : ℕ} (h : n < 2 ^ 53) : exFloat (dec n) = some (some (n : ℝ)) := by
  rw [exFloat_dec, toDouble_nearest.keep ⟨n, 0, by simpa using by exact_mod_cast h, by norm_num, by simp⟩]

/-- The two stations get their rows. -/
theorem exSmag_file (tod : Time.Tod) : ∃ rows, SmagOut.smag2ascii exFloat exLines (some (exSBound tod))
    (fun _ _ _ => .error .ioError) 1 60 none = .ok (.file rows) ∧ rows.length = 2 ∧
    ∀ r ∈ rows, r.id.length ≤ 50 := by
  obtain ⟨m, m1, m2, m3⟩ := SmagOut.C114_from_file exFloat ["File description\n".toList] (Smag.rule ++ "\n".toList) [exSmag] (by
    intro l hl
    obtain rfl := List.mem_singleton.1 hl
    decide) (by decide) (by
    intro b hb
    obtain rfl := List.mem_singleton.1 hb
    exact ⟨exSmag_fine, by decide, rfl⟩) (some (exSBound tod)) (fun _ _ _ => .error .ioError) 1 60 none
  have hw : SmagOut.smag2ascii exFloat exLines (some (exSBound tod)) (fun _ _ _ => .error .ioError) 1 60 none =
      SmagOut.write (exSBound tod) 1 60 none m := by
    unfold exLines
    rw [m3]
    rfl
  obtain ⟨good, hb⟩ : ∃ good, Cycle.IsBoundary (exSBound tod).cyc good :=
    ⟨_, Cycle.IsBoundary.ocb _ none none [] ⟨rfl, by intro k v h; simp [Cycle.Bnd.attr] at h⟩⟩
  have hc : (exSBound tod).cyc.times = [exStart] := rfl
  have hd : m.time = [exStart, exStart] := by rw [m1.time]; rfl
  have hid : m.id = ["THL".toList, "NAQ".toList] := by rw [m1.id]; decide
  have num : ∀ {l : Name} {i n : ℕ}, n < 1000 → Smag.text l i = dec n → Smag.num exFloat l i = some (n : ℝ) := by
    intro l i n hn h
    rw [Smag.num, h, exFloat_small (by omega)]
    rfl
  have cl : ∀ {n : ℕ}, n < 1000 → Smag.clean (some (n : ℝ)) = some (n : ℝ) := by
    intro n hn
    unfold Smag.clean
    rw [if_neg]
    intro h
    rw [Option.some.injEq] at h
    have : n = 999999 := by exact_mod_cast h
    omega
  have clm : ∀ {l : Name} {i n : ℕ}, n < 1000 → Smag.text l i = dec n → Smag.clean (Smag.num exFloat l i) = some (n : ℝ) := by
    intro l i n hn h
    rw [num hn h, cl hn]
  have two : ∀ {α : Type} (g : Smag.Block → Name → α), SmagOut.perStation [exSmag] g =
      [g exSmag "THL 10 3 1 14 85 4 60\n".toList, g exSmag "NAQ 1 2 3 4 66 6 7\n".toList] := fun g => rfl
  have hlat : m.mlat = [some ((85 : ℕ) : ℝ), some ((66 : ℕ) : ℝ)] := by
    rw [m1.mlat, two, num (n := 85) (by norm_num) (by decide +kernel), num (n := 66) (by norm_num) (by decide +kernel)]
  have hlt : m.mlt = [some ((14 : ℕ) : ℝ), some ((4 : ℕ) : ℝ)] := by
    rw [m1.mlt, two, clm (n := 14) (by norm_num) (by decide +kernel), clm (n := 4) (by norm_num) (by decide +kernel)]
  have hbn : m.bn = [some ((10 : ℕ) : ℝ), some ((1 : ℕ) : ℝ)] := by
    rw [m1.bn, two, clm (n := 10) (by norm_num) (by decide +kernel), clm (n := 1) (by norm_num) (by decide +kernel)]
  have hbe : m.be = [some ((3 : ℕ) : ℝ), some ((2 : ℕ) : ℝ)] := by
    rw [m1.be, two, clm (n := 3) (by norm_num) (by decide +kernel), clm (n := 2) (by norm_num) (by decide +kernel)]
  have hbz : m.bz = [some ((1 : ℕ) : ℝ), some ((3 : ℕ) : ℝ)] := by
    rw [m1.bz, two, clm (n := 1) (by norm_num) (by decide +kernel), clm (n := 3) (by norm_num) (by decide +kernel)]
  have hk0 : SmagOut.Kept m 1 0 := ⟨(85 : ℕ), (14 : ℕ), (10 : ℕ), (3 : ℕ), (1 : ℕ), ⟨by rw [hlat]; rfl, by rw [hlt]; rfl,
    by rw [hbn]; rfl, by rw [hbe]; rfl, by rw [hbz]; rfl⟩, by rw [sign_pos (by norm_num)]; rfl⟩
  have hk1 : SmagOut.Kept m 1 1 := ⟨(66 : ℕ), (4 : ℕ), (1 : ℕ), (2 : ℕ), (3 : ℕ), ⟨by rw [hlat]; rfl, by rw [hlt]; rfl,
    by rw [hbn]; rfl, by rw [hbe]; rfl, by rw [hbz]; rfl⟩, by rw [sign_pos (by norm_num)]; rfl⟩
  have hD : m.time.Pairwise (· ≤ ·) := by rw [hd]; simp
  have hN : Cycle.NondecOn (exSBound tod).cyc.times (Cycle.Cand good (exSBound tod).cursor) := by
    rw [hc]
    intro a b x y _ _ _ ⟨_, h1⟩ ⟨_, h2⟩
    have e1 := List.mem_of_getElem? h1
    have e2 := List.mem_of_getElem? h2
    simp only [List.mem_singleton] at e1 e2
    omega
  have hat : Cycle.At (exSBound tod).cyc.times 0 exStart := ⟨le_rfl, rfl⟩
  have hcand : Cycle.Cand good (exSBound tod).cursor 0 := ⟨le_rfl, .inl rfl⟩
  have hcl : ∀ i : ℕ, i < 2 → Cycle.Close (exSBound tod).cyc m.time 60 i 0 := by
    intro i hi
    refine ⟨exStart, exStart, ?_, hat, by norm_num⟩
    rw [hd]
    have : i = 0 ∨ i = 1 := by omega
    rcases this with rfl | rfl <;> rfl
  have hno : ¬ Cycle.NoOverlap (exSBound tod).cyc good (exSBound tod).cursor (SmagOut.keptTimes m 1) 60 := by
    have hkt : SmagOut.keptTimes m 1 = [exStart, exStart] := by
      unfold SmagOut.keptTimes
      rw [hd]
      simp [List.range_succ, hk0, hk1]
    rw [hkt]
    rintro ⟨-, ⟨h, -⟩ | ⟨-, h⟩⟩
    · exact absurd h (show ¬(0 : ℤ) = -1 by decide)
    · have := h 0 exStart exStart hat hcand rfl
      omega
  have hu : SmagOut.Usable [Coord.exRec] [tod] (exSBound tod).cyc 1 := by
    refine ⟨rfl, rfl, fun B hB => ?_⟩
    rw [List.mem_singleton] at hB
    subst hB
    exact ⟨Coord.exRec_valid, by norm_num [Coord.exRec], by norm_num [Coord.exRec], by norm_num [Coord.exRec]⟩
  have hex : ∃ rows, SmagOut.write (exSBound tod) 1 60 none m = .ok (.file rows) := by
    cases hw' : SmagOut.write (exSBound tod) 1 60 none m with
    | error e =>
      have := (SmagOut.C111_fails_iff [Coord.exRec] 1 74 [tod] (exSBound tod).cyc 0 hb (by decide) hu 60 (by norm_num) none m m2 (by
        intro x hx
        rw [hlat] at hx
        simp only [List.mem_cons, Option.some.injEq, List.not_mem_nil, or_false] at hx
        rcases hx with rfl | rfl <;> norm_num) hD hN e).1 hw'
      exact absurd this.2.2 hno
    | ok out =>
      cases out with
      | file rows => exact ⟨rows, rfl⟩
      | nothing =>
        have := (SmagOut.C111_no_file _ 1 60 none m).1 hw'
        rw [hc] at this
        simp at this
  obtain ⟨rows, hrows⟩ := hex
  obtain ⟨l, hp, l2⟩ := SmagOut.C110_rows (exSBound tod) hb (show (-1 : ℤ) ≤ 0 by decide) 1 60 (by norm_num) none m m2 rows hrows
  refine ⟨rows, hw.trans hrows, ?_, ?_⟩
  · rw [← l2.length_eq]
    have hlt : ∀ q ∈ l, q.1 < 2 := by
      intro q hq
      obtain ⟨⟨x, _, _, _, _, x1, -⟩, -⟩ := hp.fits q hq
      have := x1.lat
      rw [hlat] at this
      exact (List.getElem?_eq_some_iff.1 this).1
    obtain ⟨p, p1, p2⟩ := hp.complete hD hN 0 0 hk0 hcand (hcl 0 (by norm_num))
    obtain ⟨q, q1, q2⟩ := hp.complete hD hN 1 0 hk1 hcand (hcl 1 (by norm_num))
    have l1 := hp.order hD
    match l, l1, hlt, p1, q1 with
    | [a], _, _, p1, q1 =>
      rw [List.mem_singleton] at p1 q1
      rw [p1, ← q1] at p2
      omega
    | [a, b], _, _, _, _ => rfl
    | a :: b :: c :: _, l1, hlt, _, _ =>
      have h1 := (List.pairwise_cons.1 l1).1 b (by simp)
      have h2 := (List.pairwise_cons.1 (List.pairwise_cons.1 l1).2).1 c (by simp)
      have h3 := hlt c (by simp)
      omega
  · intro r hr
    rw [List.forall₂_iff_get] at l2
    obtain ⟨n, hn, rfl⟩ := List.getElem_of_mem hr
    have h1 := (l2.2 n (l2.1 ▸ hn) hn).1
    have t2 := h1.id
    have t2 := List.mem_of_getElem? t2
    rw [hid] at t2
    simp only [List.mem_cons, List.not_mem_nil, or_false, or_self, List.get_eq_getElem] at t2
    rcases t2 with h | h <;> rw [h] <;> decide

/-- The hypotheses of C207 are met: the stations get their rows, and the file with them is read back. -/
example (tod : Time.Tod) : ∃ rows, SmagOut.smag2ascii exFloat exLines (some (exSBound tod))
      (fun _ _ _ => .error .ioError) 1 60 none = .ok (.file rows) ∧ rows.length = 2 ∧
      ∃ hd t out, ∃ idx : List ℕ, Smag.load exFloat exLines = .ok (hd, some t) ∧
      Ascii.load exFloat (backArgs [3]) ⟨true, smagLines rows, ((smagLines rows).drop 1).map Smag.words⟩ = .ok out ∧ idx.Nodup ∧
      List.Forall₂ (fun i v => ∃ w, (t "STID".toList)[i]? = some (.txt w) ∧ v = .txt w) idx (out.out "STID".toList) := by
  obtain ⟨rows, hrows, hlen, hy⟩ := exSmag_file tod
  refine ⟨rows, hrows, hlen, ?_⟩
  obtain ⟨hd, t, out, idx, u1, u2, u3, -, -, u4, -⟩ := C207_smag exFloat_reads (by
    intro pre r post h1 h2 l hl k v hw
    have h3 : l ∈ exLines := by rw [h1]; simp [hl]
    have h4 : l ≠ "File description\n".toList := by
      intro h
      have c1 : exLines.count "File description\n".toList = 1 := by decide
      have c2 : exLines[0]? = some "File description\n".toList := by decide
      rw [h] at hl
      rw [h1] at c1 c2
      rw [List.count_append, List.count_cons] at c1
      have c3 : 0 < post.count "File description\n".toList := List.count_pos_iff.2 hl
      cases pre with
      | nil =>
        simp only [List.nil_append, List.getElem?_cons_zero, Option.some.injEq] at c2
        rw [c2] at h2
        exact absurd h2 (by decide)
      | cons a pre =>
        simp only [List.cons_append, List.getElem?_cons_zero, Option.some.injEq] at c2
        rw [c2, List.count_cons_self] at c1
        omega
    have h5 : ∀ l ∈ exLines, (Smag.words l).length = 2 → (Smag.words l).headD [] = "SML".toList ∨ l = "File description\n".toList := by
      decide
    rcases h5 l h3 (by rw [hw]; rfl) with h | h
    · rw [hw] at h
      exact .inr h
    · exact absurd h h4) hrows (by norm_num) (by
    intro m b h e
    have : b = exSBound tod := (congrArg Prod.fst (Except.ok.inj e)).symm
    rw [this]
    exact ⟨show (-1 : ℤ) ≤ 0 by decide, _, Cycle.IsBoundary.ocb _ none none [] ⟨rfl, by intro k v h; simp [Cycle.Bnd.attr] at h⟩⟩)
    (by rw [hlen]) hy
    (f := ⟨true, smagLines rows, ((smagLines rows).drop 1).map Smag.words⟩) rfl rfl rfl
  exact ⟨hd, t, out, idx, u1, u2, u3, u4⟩

end Ocb.FileBack
