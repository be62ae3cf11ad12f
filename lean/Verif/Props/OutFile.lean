import Verif.Model.OutFile
import Verif.Props.VortOut
import Verif.Props.SmagOut

/-!
# Properties of the files that are read and written
-/

set_option autoImplicit false

namespace Ocb.OutFile

open Ocb.Files (Name)
open Ocb.Cycle
open Ocb.Smag (sameTime lastSame driveGroups)

/-! ### Which files are read -/

/-- A file that can be read: it exists, it has content, and no more than two gigabytes of it. -/
def Readable (D : Disk) (n : Name) : Prop := D.isFile n = true ∧ 0 < D.size n ∧ D.size n ≤ 2 * 10 ^ 9

/-- C157: for a name that is a text the test always returns, and it accepts exactly the readable files. -/
theorem C157_test (D : Disk) (n : Name) : ∃ b, testFile D (.text n) = .ok b ∧ (b = true ↔ Readable D n) := by
  unfold testFile Readable FName.name FName.isText
  by_cases h1 : D.isFile n
  · by_cases h2 : D.size n > 2000000000
    · exact ⟨false, by simp [h1, h2], by simp; omega⟩
    · by_cases h3 : D.size n = 0
      · exact ⟨false, by simp [h1, h3], by simp [h3]⟩
      · exact ⟨true, by simp [h1, h2, h3], by simp [h1]; omega⟩
  · exact ⟨false, by simp [h1], by simp [h1]⟩

/-- A disk with one file of ten bytes passes the test, for this file only. -/
example : testFile ⟨fun n => n == "a".toList, fun _ => 10, fun _ => []⟩ (.text "a".toList) = .ok true ∧
    testFile ⟨fun n => n == "a".toList, fun _ => 10, fun _ => []⟩ (.text "b".toList) = .ok false := by
  decide

theorem test_false {D : Disk} {n : Name} (h : ¬ Readable D n) : testFile D (.text n) = .ok false := by
  obtain ⟨b, h1, h2⟩ := C157_test D n
  cases b with
  | false => exact h1
  | true => exact absurd (h2.1 rfl) h

theorem test_true {D : Disk} {n : Name} (h : Readable D n) : testFile D (.text n) = .ok true := by
  obtain ⟨b, h1, h2⟩ := C157_test D n
  rw [h1, h2.2 h]

/-- C157: a file that cannot be read gives empty results of the loaders, and IOError of the drivers, which leave the output
file alone; nothing of the content of the file matters. -/
theorem C157_refused (D : Disk) (n : Name) (h : ¬ Readable D n) (float : Vort.Conv) (cut : Name → Vort.Line) :
    loadSmag float D (.text n) = .ok ([], none) ∧ (∀ saveAll, loadVort float cut saveAll D (.text n) = .ok none) ∧
    (∀ out wr given make hem tol saveAll scale,
      vortFile float cut D (.text n) out wr given make hem tol saveAll scale = (.error .ioError, .kept)) ∧
    ∀ out wr given make hem tol scale,
      smagFile float D (.text n) out wr given make hem tol scale = (.error .ioError, .kept) := by
  have e := test_false h
  refine ⟨?_, fun _ => ?_, fun _ _ _ _ _ _ _ _ => ?_, fun _ _ _ _ _ _ _ => ?_⟩
  · unfold loadSmag
    simp only [e, bind, Except.bind]
    rfl
  · unfold loadVort
    simp only [e, bind, Except.bind]
    rfl
  · unfold vortFile
    simp only [e]
    rfl
  · unfold smagFile
    simp only [e]
    rfl

/-- C157: readable files are read. -/
theorem C157_read (D : Disk) (n : Name) (h : Readable D n) (float : Vort.Conv) (cut : Name → Vort.Line) :
    loadSmag float D (.text n) = Smag.load float (D.lines n) ∧
    ∀ saveAll, loadVort float cut saveAll D (.text n) = Vort.load float saveAll ((D.lines n).map cut) := by
  have e := test_true h
  constructor
  · unfold loadSmag
    simp only [e, bind, Except.bind]
    rfl
  · intro saveAll
    unfold loadVort
    simp only [e, bind, Except.bind]
    rfl

/-- C157 is false for path objects: the test of an empty file raises TypeError, and the drivers raise TypeError where they
should raise IOError, for each file that cannot be read. -/
theorem C157_path_refuted (D : Disk) (n : Name) (h : ¬ Readable D n) (float : Vort.Conv) (cut : Name → Vort.Line) :
    (D.isFile n = true → D.size n = 0 → testFile D (.path n) = .error .typeError) ∧
    (∀ out wr given make hem tol saveAll scale,
      vortFile float cut D (.path n) out wr given make hem tol saveAll scale = (.error .typeError, .kept)) ∧
    ∀ out wr given make hem tol scale,
      smagFile float D (.path n) out wr given make hem tol scale = (.error .typeError, .kept) := by
  have ht : testFile D (.path n) = .ok false ∨ testFile D (.path n) = .error .typeError := by
    unfold testFile Readable at *
    simp only [FName.name, FName.isText]
    split_ifs with h1 h2 h3 <;> first | exact .inl rfl | exact .inr rfl | skip
    exact absurd ⟨by simpa using h1, by omega, by omega⟩ h
  refine ⟨fun h1 h2 => ?_, fun _ _ _ _ _ _ _ _ => ?_, fun _ _ _ _ _ _ _ => ?_⟩
  · unfold testFile
    simp [FName.name, FName.isText, h1, h2]
  · unfold vortFile
    rcases ht with ht | ht <;> simp only [ht] <;> rfl
  · unfold smagFile
    rcases ht with ht | ht <;> simp only [ht] <;> rfl

/-- C157, the part that holds for path objects: unless the file is empty the test has the result of the text. -/
theorem C157_path_partial (D : Disk) (n : Name) (h : D.isFile n = true → 0 < D.size n) :
    testFile D (.path n) = testFile D (.text n) := by
  unfold testFile
  simp only [FName.name, FName.isText]
  split_ifs with h1 h2 h3 <;> first | rfl | skip
  have := h (by simpa using h1)
  omega

/-! ### Writing row by row -/

theorem stream_ok {α β : Type} (f : α → Except PyErr β) (l : List α) (bs : List β) :
    mapE f l = .ok bs ↔ stream f l = (bs, none) := by
  induction l generalizing bs with
  | nil => simp [mapE, stream]
  | cons a l ih =>
    unfold mapE stream
    cases h : f a with
    | error e => simp
    | ok b =>
      simp only
      cases hm : mapE f l with
      | error e =>
        simp only [reduceCtorEq, Prod.mk.injEq, false_iff, not_and]
        intro _ h2
        have := (ih (stream f l).1).2 (Prod.ext rfl h2)
        rw [hm] at this
        cases this
      | ok cs =>
        have := (ih cs).1 hm
        simp [this]

theorem stream_error {α β : Type} (f : α → Except PyErr β) (l : List α) (e : PyErr) :
    mapE f l = .error e ↔ (stream f l).2 = some e := by
  induction l with
  | nil => simp [mapE, stream]
  | cons a l ih =>
    unfold mapE stream
    cases h : f a with
    | error e => simp
    | ok b =>
      simp only
      rw [← ih]
      cases hm : mapE f l <;> simp

theorem close_ok {R : Type} (r : List R × Option PyErr) (L : Left R) :
    close r = (.ok (), L) ↔ ∃ rows, r = (rows, none) ∧ L = .table rows := by
  obtain ⟨rows, e⟩ := r
  cases e with
  | none => simp [close, eq_comm]
  | some e => simp [close]

theorem close_error {R : Type} (r : List R × Option PyErr) (e : PyErr) (L : Left R) :
    close r = (.error e, L) ↔ r.2 = some e ∧ L = .table r.1 := by
  obtain ⟨rows, e'⟩ := r
  cases e' with
  | none => simp [close]
  | some e' => simp [close, eq_comm]

section
variable {c : Cycler} {R : Type}

theorem vort_unfold {dat : List ℤ} {tol rec q : ℤ} {i : ℕ} {out : Option ℕ} {row : ℕ → ℤ → Except PyErr R}
    (hc : i < dat.length ∧ rec < c.records) (em : matchData c rec dat i tol = .ok (out, q)) :
    vortLoop c dat tol row i rec = (match out with
      | none => ([], some .typeError)
      | some i' => if i' < dat.length ∧ q < c.records then
          match row i' q with
          | .error e => ([], some e)
          | .ok x => (x :: (vortLoop c dat tol row (i' + 1) q).1, (vortLoop c dat tol row (i' + 1) q).2)
        else ([], none)) := by
  rw [vortLoop, if_pos hc]
  split
  · rename_i h; rw [em] at h; simp at h
  · rename_i h
    rw [em] at h
    obtain ⟨rfl, -⟩ : out = none ∧ q = _ := by simpa using h
    rfl
  · rename_i i' r' h
    rw [em] at h
    obtain ⟨rfl, rfl⟩ : out = some i' ∧ q = r' := by simpa using h
    rfl

/-- The loop that writes at once, and the loop that lists the pairs first: the same rows if the list is there; an exception in
both cases otherwise. -/
theorem vort_drive (c : Cycler) (dat : List ℤ) (tol : ℤ) (row : ℕ → ℤ → Except PyErr R) :
    ∀ (m i : ℕ) (rec : ℤ), dat.length - i ≤ m →
      (∀ l, drive c dat tol i rec = .ok l → vortLoop c dat tol row i rec = stream (fun p => row p.1 p.2) l) ∧
      ∀ e, drive c dat tol i rec = .error e → ∃ e', (vortLoop c dat tol row i rec).2 = some e' := by
  intro m
  induction m with
  | zero =>
    intro i rec hm
    rw [drive, vortLoop, if_neg (by omega), if_neg (by omega)]
    refine ⟨fun l h => ?_, fun e h => (by cases h)⟩
    obtain rfl : ([] : List (ℕ × ℤ)) = l := by simpa using h
    rfl
  | succ m ih =>
    intro i rec hm
    by_cases hc : i < dat.length ∧ rec < c.records
    · cases em : matchData c rec dat i tol with
      | error e =>
        have e1 : drive c dat tol i rec = .error e := by
          rw [drive, if_pos hc]
          split <;> simp_all
        have e2 : vortLoop c dat tol row i rec = ([], some e) := by
          rw [vortLoop, if_pos hc]
          split <;> simp_all
        rw [e1, e2]
        exact ⟨fun l h => (by cases h), fun e' _ => ⟨e, rfl⟩⟩
      | ok p =>
        obtain ⟨out, q⟩ := p
        have hge : ∀ i', out = some i' → i ≤ i' := fun i' h => matchData_ge c rec dat i tol i' q (by rw [em, h])
        rw [vort_unfold hc em, Smag.drive_unfold hc em]
        cases out with
        | none => exact ⟨fun l h => by simp at h, fun e _ => ⟨_, rfl⟩⟩
        | some i' =>
          have := hge i' rfl
          simp only
          by_cases hi : i' < dat.length ∧ q < c.records
          · obtain ⟨k1, k2⟩ := ih (i' + 1) q (by omega)
            rw [if_pos hi, if_pos hi]
            cases hd : drive c dat tol (i' + 1) q with
            | error e =>
              refine ⟨fun l h => by simp at h, fun _ _ => ?_⟩
              cases hr : row i' q with
              | error e => exact ⟨e, rfl⟩
              | ok x => exact k2 e hd
            | ok l =>
              refine ⟨fun l' h => ?_, fun e h => by simp at h⟩
              obtain rfl : (i', q) :: l = l' := by simpa using h
              simp only [stream, k1 l hd]
              rfl
          · rw [if_neg hi, if_neg hi]
            refine ⟨fun l h => ?_, fun e h => by simp at h⟩
            obtain rfl : ([] : List (ℕ × ℤ)) = l := by simpa using h
            rfl
    · rw [drive, vortLoop, if_neg hc, if_neg hc]
      refine ⟨fun l h => ?_, fun e h => (by cases h)⟩
      obtain rfl : ([] : List (ℕ × ℤ)) = l := by simpa using h
      rfl

/-- The loop can be ended by the matcher at its first call only: then no row is written. -/
theorem vort_first {good : ℤ → Prop} (hb : IsBoundary c good) (dat : List ℤ) (tol : ℤ) (htol : 0 ≤ tol) (rec : ℤ)
    (h0 : -1 ≤ rec) (row : ℕ → ℤ → Except PyErr R) (e : PyErr) (h : drive c dat tol 0 rec = .error e) :
    e = .typeError ∧ vortLoop c dat tol row 0 rec = ([], some .typeError) := by
  have hl := hb.lawful
  have hc : 0 < dat.length ∧ rec < c.records := by
    by_contra hc
    rw [drive, if_neg hc] at h
    cases h
  obtain ⟨out, q, em, hm⟩ := matchData_out hl rec dat 0 tol h0 htol
  rw [Smag.drive_unfold hc em] at h
  rw [vort_unfold hc em]
  cases hm with
  | hit i _ a1 a2 a3 a4 a5 =>
    obtain ⟨l, hl'⟩ := ((drive_out hl dat tol htol rec h0) _ (i + 1) q le_rfl (Or.inr ⟨a3, a4, a5⟩)).1 (by omega) a3
    simp only [hl'] at h
    split at h <;> cases h
  | over i _ a0 a1 a2 a3 =>
    simp only [if_neg (show ¬ (i < dat.length ∧ q < c.records) by omega)] at h
    cases h
  | early _ _ => simp at h; exact ⟨h.symm, rfl⟩
  | late _ _ => simp at h; exact ⟨h.symm, rfl⟩

theorem smag_unfold {dat : List ℤ} {tol rec q : ℤ} {i : ℕ} {out : Option ℕ} {group : List ℕ → ℤ → List R × Option PyErr}
    (hc : i < dat.length ∧ rec < c.records) (em : matchData c rec dat i tol = .ok (out, q)) :
    smagLoop c dat tol group i rec = (match out with
      | none => ([], some .typeError)
      | some i' => if i' < dat.length ∧ q < c.records then
          match group (sameTime dat i') q with
          | (rows, some e) => (rows, some e)
          | (rows, none) => (rows ++ (smagLoop c dat tol group (lastSame dat i' + 1) q).1,
              (smagLoop c dat tol group (lastSame dat i' + 1) q).2)
        else ([], none)) := by
  rw [smagLoop, if_pos hc]
  split
  · rename_i h; rw [em] at h; simp at h
  · rename_i h
    rw [em] at h
    obtain ⟨rfl, -⟩ : out = none ∧ q = _ := by simpa using h
    rfl
  · rename_i i' r' h
    rw [em] at h
    obtain ⟨rfl, rfl⟩ : out = some i' ∧ q = r' := by simpa using h
    simp only
    split <;> rfl

/-- The same for the loop over groups. -/
theorem smag_drive (c : Cycler) (dat : List ℤ) (tol : ℤ) (group : List ℕ → ℤ → Except PyErr (List R))
    (run : List ℕ → ℤ → List R × Option PyErr) (hok : ∀ g k rs, group g k = .ok rs ↔ run g k = (rs, none))
    (herr : ∀ g k e, group g k = .error e ↔ (run g k).2 = some e) :
    ∀ (m i : ℕ) (rec : ℤ), dat.length - i ≤ m →
      (∀ l rs, driveGroups c dat tol i rec = .ok l → mapE (fun g : List ℕ × ℤ => group g.1 g.2) l = .ok rs →
        smagLoop c dat tol run i rec = (rs.flatten, none)) ∧
      (∀ l e, driveGroups c dat tol i rec = .ok l → mapE (fun g : List ℕ × ℤ => group g.1 g.2) l = .error e →
        (smagLoop c dat tol run i rec).2 = some e) ∧
      ∀ e, driveGroups c dat tol i rec = .error e → ∃ e', (smagLoop c dat tol run i rec).2 = some e' := by
  intro m
  induction m with
  | zero =>
    intro i rec hm
    rw [driveGroups, smagLoop, if_neg (by omega), if_neg (by omega)]
    refine ⟨fun l rs h hr => ?_, fun l e h hr => ?_, fun e h => (by cases h)⟩
    all_goals
      obtain rfl : ([] : List (List ℕ × ℤ)) = l := by simpa using h
      simp [mapE] at hr
    subst hr
    rfl
  | succ m ih =>
    intro i rec hm
    by_cases hc : i < dat.length ∧ rec < c.records
    · cases em : matchData c rec dat i tol with
      | error e =>
        have e1 : driveGroups c dat tol i rec = .error e := by
          rw [driveGroups, if_pos hc]
          split <;> simp_all
        have e2 : smagLoop c dat tol run i rec = ([], some e) := by
          rw [smagLoop, if_pos hc]
          split <;> simp_all
        rw [e1, e2]
        exact ⟨fun l rs h => (by cases h), fun l e' h => (by cases h), fun e' _ => ⟨e, rfl⟩⟩
      | ok p =>
        obtain ⟨out, q⟩ := p
        have hge : ∀ i', out = some i' → i ≤ i' := fun i' h => matchData_ge c rec dat i tol i' q (by rw [em, h])
        rw [smag_unfold hc em, Smag.groups_unfold hc em]
        cases out with
        | none => exact ⟨fun l rs h => by simp at h, fun l e h => by simp at h, fun e _ => ⟨_, rfl⟩⟩
        | some i' =>
          have := hge i' rfl
          simp only
          by_cases hi : i' < dat.length ∧ q < c.records
          · have h2 := Smag.le_lastSame (Smag.sameTime_self hi.1)
            obtain ⟨k1, k2, k3⟩ := ih (lastSame dat i' + 1) q (by omega)
            rw [if_pos hi, if_pos hi]
            cases hd : driveGroups c dat tol (lastSame dat i' + 1) q with
            | error e =>
              refine ⟨fun l rs h => by simp at h, fun l e h => by simp at h, fun _ _ => ?_⟩
              obtain ⟨e', he'⟩ := k3 e hd
              rcases hrun : run (sameTime dat i') q with ⟨rows, _ | e⟩
              · exact ⟨e', he'⟩
              · exact ⟨e, rfl⟩
            | ok l =>
              refine ⟨fun l' rs h hr => ?_, fun l' e h hr => ?_, fun e h => by simp at h⟩
              · obtain rfl : (sameTime dat i', q) :: l = l' := by simpa using h
                unfold mapE at hr
                cases hg : group (sameTime dat i') q with
                | error e => rw [hg] at hr; cases hr
                | ok r0 =>
                  rw [hg] at hr
                  simp only at hr
                  cases hr' : mapE (fun g : List ℕ × ℤ => group g.1 g.2) l with
                  | error e => rw [hr'] at hr; cases hr
                  | ok rs' =>
                    rw [hr'] at hr
                    obtain rfl : r0 :: rs' = rs := by simpa using hr
                    simp only [(hok _ _ _).1 hg, k1 l rs' hd hr', List.flatten_cons]
              · obtain rfl : (sameTime dat i', q) :: l = l' := by simpa using h
                unfold mapE at hr
                cases hg : group (sameTime dat i') q with
                | error e' =>
                  rw [hg] at hr
                  obtain rfl : e' = e := by simpa using hr
                  have := (herr _ _ _).1 hg
                  rcases hrun : run (sameTime dat i') q with ⟨rows, _ | e''⟩
                  · rw [hrun] at this; cases this
                  · rw [hrun] at this; exact this
                | ok r0 =>
                  rw [hg] at hr
                  simp only at hr
                  cases hr' : mapE (fun g : List ℕ × ℤ => group g.1 g.2) l with
                  | ok rs => rw [hr'] at hr; cases hr
                  | error e' =>
                    rw [hr'] at hr
                    obtain rfl : e' = e := by simpa using hr
                    simp only [(hok _ _ _).1 hg]
                    exact k2 l e' hd hr'
          · rw [if_neg hi, if_neg hi]
            refine ⟨fun l rs h hr => ?_, fun l e h hr => ?_, fun e h => by simp at h⟩
            all_goals
              obtain rfl : ([] : List (List ℕ × ℤ)) = l := by simpa using h
              simp [mapE] at hr
            subst hr
            rfl
    · rw [driveGroups, smagLoop, if_neg hc, if_neg hc]
      refine ⟨fun l rs h hr => ?_, fun l e h hr => ?_, fun e h => (by cases h)⟩
      all_goals
        obtain rfl : ([] : List (List ℕ × ℤ)) = l := by simpa using h
        simp [mapE] at hr
      subst hr
      rfl

theorem smag_first {good : ℤ → Prop} (hb : IsBoundary c good) (dat : List ℤ) (tol : ℤ) (htol : 0 ≤ tol) (rec : ℤ)
    (h0 : -1 ≤ rec) (run : List ℕ → ℤ → List R × Option PyErr) (e : PyErr) (h : driveGroups c dat tol 0 rec = .error e) :
    e = .typeError ∧ smagLoop c dat tol run 0 rec = ([], some .typeError) := by
  have hl := hb.lawful
  have hc : 0 < dat.length ∧ rec < c.records := by
    by_contra hc
    rw [driveGroups, if_neg hc] at h
    cases h
  obtain ⟨out, q, em, hm⟩ := matchData_out hl rec dat 0 tol h0 htol
  rw [Smag.groups_unfold hc em] at h
  rw [smag_unfold hc em]
  cases hm with
  | hit i _ a1 a2 a3 a4 a5 =>
    obtain ⟨l, hl'⟩ := ((Smag.groups_out hl dat tol htol rec h0) _ (lastSame dat i + 1) q le_rfl
      (Or.inr ⟨a3, a4, a5⟩)).1 (by omega) a3
    simp only [hl'] at h
    split at h <;> cases h
  | over i _ a0 a1 a2 a3 =>
    simp only [if_neg (show ¬ (i < dat.length ∧ q < c.records) by omega)] at h
    cases h
  | early _ _ => simp at h; exact ⟨h.symm, rfl⟩
  | late _ _ => simp at h; exact ⟨h.symm, rfl⟩

end

/-! ### The vorticity driver -/

section
open Ocb.VortOut (write Even hemTimes vort2ascii setup)

theorem vort_returns (wr : Bool) (b : VortOut.Bound) (hem tol : ℤ) (scale : VortOut.Scale) (saveAll : Bool) (t : Vort.Table)
    (L : Left VortOut.Row) : vortWrite wr true b hem tol scale saveAll t = (.ok (), L) ↔
      (write b hem tol scale saveAll t = .ok .nothing ∧ L = .kept) ∨
      ∃ rows, write b hem tol scale saveAll t = .ok (.file rows) ∧ wr = true ∧ L = .table rows := by
  unfold vortWrite VortOut.write
  by_cases h1 : b.cyc.records = 0
  · simp [h1, eq_comm]
  · rw [if_neg h1, if_neg h1]
    simp only
    by_cases h2 : (VortOut.igood (t.col "CENTRE_MLAT") hem).length ≠ (t.col "CENTRE_MLAT").length ∧
        (VortOut.igood (t.col "CENTRE_MLAT") hem).length = 0
    · rw [if_pos h2, if_pos h2]
      simp [eq_comm]
    · rw [if_neg h2, if_neg h2]
      generalize (if (VortOut.igood (t.col "CENTRE_MLAT") hem).length ≠ (t.col "CENTRE_MLAT").length then
        VortOut.pickTable (VortOut.igood (t.col "CENTRE_MLAT") hem) t else t) = t'
      obtain ⟨k1, k2⟩ := vort_drive b.cyc t'.dtime tol (VortOut.row b scale saveAll t') _ 0 b.cursor le_rfl
      cases wr with
      | false =>
        simp only [Bool.false_eq_true, not_false_eq_true, if_true, stop, Prod.mk.injEq, reduceCtorEq, false_and, and_false,
          exists_false, or_false, false_iff, not_and]
        intro h
        split at h
        · cases h
        · split at h <;> cases h
      | true =>
        rw [if_neg (by simp), close_ok]
        cases hd : drive b.cyc t'.dtime tol 0 b.cursor with
        | error e =>
          obtain ⟨e', he⟩ := k2 e hd
          simp only [reduceCtorEq, false_and, exists_false, or_false, iff_false, not_exists, not_and]
          intro rows hr
          rw [hr] at he
          cases he
        | ok l =>
          rw [k1 l hd]
          simp only
          cases hm : mapE (fun p : ℕ × ℤ => VortOut.row b scale saveAll t' p.1 p.2) l with
          | error e =>
            have := (stream_error _ _ _).1 hm
            simp only [reduceCtorEq, false_and, exists_false, or_false, iff_false, not_exists, not_and]
            intro rows hr
            rw [hr] at this
            cases this
          | ok rows =>
            have := (stream_ok _ _ _).1 hm
            rw [this]
            simp

/-- C158: `vort2ascii_ocb`, writing row by row, returns exactly if the input file can be read, the calculation succeeds, and the
output file can be opened if there is something to write.  Then the output file is as before, or has all rows of the result. -/
theorem C158_vort_returns (float : Vort.Conv) (cut : Name → Vort.Line) (D : Disk) (n o : Name) (wr : Name → Bool)
    (given : Option VortOut.Bound) (make : ℤ → ℤ → ℤ → Except PyErr VortOut.Bound) (hem tol : ℤ) (saveAll : Bool)
    (scale : VortOut.Scale) (L : Left VortOut.Row) :
    vortFile float cut D (.text n) (some o) wr given make hem tol saveAll scale = (.ok (), L) ↔ Readable D n ∧
      ((vort2ascii float ((D.lines n).map cut) given make hem tol saveAll scale = .ok .nothing ∧ L = .kept) ∨
        ∃ rows, vort2ascii float ((D.lines n).map cut) given make hem tol saveAll scale = .ok (.file rows) ∧ wr o = true ∧
          L = .table rows) := by
  by_cases hr : Readable D n
  · unfold vortFile vort2ascii
    simp only [test_true hr, (C157_read D n hr float cut).2, bind, Except.bind, hr, true_and, stop]
    cases hl : Vort.load float saveAll ((D.lines n).map cut) with
    | error e => simp
    | ok t =>
      cases t with
      | none => simp [FName.isText]
      | some t =>
        simp only
        cases hs : setup given make hem tol t with
        | error e => simp
        | ok p => exact vort_returns (wr o) p.1 p.2 tol scale saveAll t L
  · rw [(C157_refused D n hr float cut).2.2.1]
    simp [hr]

/-- C158, the part that holds for calls that raise: if the input file cannot be read, its content not loaded, the boundary not
found or the output file not opened, the output file is as before. -/
theorem C158_vort_keeps_partial (float : Vort.Conv) (cut : Name → Vort.Line) (D : Disk) (f : FName) (out : Option Name)
    (wr : Name → Bool) (given : Option VortOut.Bound) (make : ℤ → ℤ → ℤ → Except PyErr VortOut.Bound) (hem tol : ℤ)
    (saveAll : Bool) (scale : VortOut.Scale) (r : Except PyErr Unit) (rows : List VortOut.Row)
    (h : vortFile float cut D f out wr given make hem tol saveAll scale = (r, .table rows)) :
    Readable D f.name ∧ (∃ o, out = some o ∧ wr o = true) ∧
      ∃ t b hm, Vort.load float saveAll ((D.lines f.name).map cut) = .ok (some t) ∧ setup given make hem tol t = .ok (b, hm) ∧
        b.cyc.times ≠ [] := by
  have hread : Readable D f.name ∧ testFile D f = .ok true := by
    by_contra hc
    cases f with
    | text n =>
      have hn : ¬ Readable D n := fun h => hc ⟨h, test_true h⟩
      rw [(C157_refused D n hn float cut).2.2.1] at h
      cases h
    | path n =>
      have hn : ¬ Readable D n := fun h => hc ⟨h, by
        rw [C157_path_partial D n fun _ => h.2.1]; exact test_true h⟩
      rw [(C157_path_refuted D n hn float cut).2.1] at h
      cases h
  refine ⟨hread.1, ?_⟩
  have hload : loadVort float cut saveAll D f = Vort.load float saveAll ((D.lines f.name).map cut) := by
    unfold loadVort
    simp only [hread.2, bind, Except.bind]
    rfl
  unfold vortFile at h
  simp only [hread.2, hload] at h
  cases out with
  | none => cases h
  | some o =>
    simp only at h
    cases hl : Vort.load float saveAll ((D.lines f.name).map cut) with
    | error e => rw [hl] at h; cases h
    | ok t =>
      rw [hl] at h
      cases t with
      | none => cases h
      | some t =>
        simp only at h
        cases hs : setup given make hem tol t with
        | error e => rw [hs] at h; cases h
        | ok p =>
          rw [hs] at h
          simp only at h
          unfold vortWrite at h
          split at h
          · cases h
          rename_i hrec
          simp only at h
          split at h
          · split at h <;> cases h
          split at h
          · cases h
          rename_i hw
          refine ⟨⟨o, rfl, by simpa using hw⟩, t, p.1, p.2, rfl, hs, fun hnil => hrec ?_⟩
          unfold Cycler.records
          rw [hnil]
          rfl

variable {good : ℤ → Prop}

theorem vort_lost (b : VortOut.Bound) (hb : IsBoundary b.cyc good) (h0 : -1 ≤ b.cursor) (hem tol : ℤ) (htol : 0 ≤ tol)
    (scale : VortOut.Scale) (saveAll : Bool) (t : Vort.Table) (ht : Even saveAll t) (hD : t.dtime.Pairwise (· ≤ ·))
    (hN : NondecOn b.cyc.times (Cand good b.cursor)) (hc : b.cyc.times ≠ [])
    (hno : NoOverlap b.cyc good b.cursor (hemTimes t hem) tol) (text : Bool) :
    vortWrite true text b hem tol scale saveAll t = (.error .typeError, .table []) := by
  have hcut := VortOut.cut_times ht hem
  have hdr := (Cycle.C60_drive_error_iff_partial hb (hemTimes t hem) tol htol b.cursor h0
    (hcut ▸ VortOut.cut_order ht hem hD) hN .typeError).2 ⟨rfl, hno⟩
  have hnot : write b hem tol scale saveAll t ≠ .ok .nothing := by
    rw [Ne, VortOut.C107_no_file b hem tol scale saveAll t ht, not_or]
    refine ⟨hc, fun h => ?_⟩
    obtain ⟨⟨d, hd⟩, -⟩ := hno
    rw [h.2] at hd
    simp at hd
  unfold VortOut.write at hnot
  unfold vortWrite
  split at hnot
  · exact absurd rfl hnot
  rename_i h1
  rw [if_neg h1]
  simp only at hnot ⊢
  split at hnot
  · exact absurd rfl hnot
  rename_i h2
  rw [if_neg h2, if_neg (by simp)]
  change close (vortLoop b.cyc (VortOut.cut t hem).dtime tol (VortOut.row b scale saveAll (VortOut.cut t hem)) 0 b.cursor) = _
  rw [← hcut] at hdr
  rw [(vort_first hb _ tol htol b.cursor h0 _ _ hdr).2]
  rfl

/-- C158 is false in one case.  For a file and a boundary that are in order the call raises exactly if the data of the
hemisphere do not overlap with the records (see C60), and then the old content of the output file is lost: it has the
header line only. -/
theorem C158_vort_lost_refuted (float : Vort.Conv) (cut : Name → Vort.Line) (D : Disk) (n o : Name) (wr : Name → Bool)
    (given : Option VortOut.Bound) (make : ℤ → ℤ → ℤ → Except PyErr VortOut.Bound) (hem tol : ℤ) (saveAll : Bool)
    (scale : VortOut.Scale) (hr : Readable D n) (hw : wr o = true) (t : Vort.Table)
    (hload : Vort.load float saveAll ((D.lines n).map cut) = .ok (some t)) (b : VortOut.Bound) (hm : ℤ)
    (hs : setup given make hem tol t = .ok (b, hm)) (hb : IsBoundary b.cyc good) (h0 : -1 ≤ b.cursor) (htol : 0 ≤ tol)
    (ht : Even saveAll t) (hD : t.dtime.Pairwise (· ≤ ·)) (hN : NondecOn b.cyc.times (Cand good b.cursor))
    (hrad : b.cyc.times.length ≤ b.r.length)
    (hp : ∀ (k : ℤ) (lat mlt : Vort.F), 0 ≤ k → k < b.cyc.times.length → ∃ o, b.place k lat mlt = .ok o) (e : PyErr)
    (L : Left VortOut.Row) :
    vortFile float cut D (.text n) (some o) wr given make hem tol saveAll scale = (.error e, L) ↔
      b.cyc.times ≠ [] ∧ NoOverlap b.cyc good b.cursor (hemTimes t hm) tol ∧ e = .typeError ∧ L = .table [] := by
  unfold vortFile
  simp only [test_true hr, (C157_read D n hr float cut).2, hload, hs, hw, FName.isText]
  constructor
  · intro h
    cases hwr : write b hm tol scale saveAll t with
    | ok out =>
      cases out with
      | nothing => rw [(vort_returns true b hm tol scale saveAll t .kept).2 (.inl ⟨hwr, rfl⟩)] at h; cases h
      | file rows =>
        rw [(vort_returns true b hm tol scale saveAll t (.table rows)).2 (.inr ⟨rows, hwr, rfl, rfl⟩)] at h; cases h
    | error e' =>
      obtain ⟨hc, -, hno⟩ := (VortOut.C107_fails_iff b hb h0 hm tol htol scale saveAll t ht hD hN hrad hp e').1 hwr
      rw [vort_lost b hb h0 hm tol htol scale saveAll t ht hD hN hc hno] at h
      cases h
      exact ⟨hc, hno, rfl, rfl⟩
  · rintro ⟨hc, hno, rfl, rfl⟩
    exact vort_lost b hb h0 hm tol htol scale saveAll t ht hD hN hc hno _

/-- One datum at time 0, one record 1000 s before: the output file is emptied. -/
example : vortWrite true true (VortOut.dual VortOut.skewDual 1 (dualCycler [-1000]) 0) 1 60 none false VortOut.oneDatum =
    (.error .typeError, .table []) := by
  refine vort_lost _ (.dual [-1000] (by simp)) (by simp [VortOut.dual]) 1 60 (by norm_num) none false VortOut.oneDatum
    (VortOut.oneDatum_even _) (by simp [VortOut.oneDatum]) ?_ (by simp [VortOut.dual, dualCycler]) ?_ true
  · intro a b s t _ _ _ ⟨_, h1⟩ ⟨_, h2⟩
    have e1 := List.mem_of_getElem? h1
    have e2 := List.mem_of_getElem? h2
    simp only [VortOut.dual, dualCycler, List.mem_singleton] at e1 e2
    omega
  · rw [VortOut.oneDatum_times]
    refine ⟨⟨0, rfl⟩, .inr ⟨⟨0, -1000, ⟨le_rfl, rfl⟩, le_rfl, .inl rfl⟩, fun k t d hk _ hd => ?_⟩⟩
    have e1 := List.mem_of_getElem? hk.2
    simp only [VortOut.dual, dualCycler, List.mem_singleton] at e1
    obtain rfl : (0 : ℤ) = d := by simpa using hd
    omega

/-- C157 is false for path objects in one more case: where the data have none of the hemisphere the call with a text returns, and
that with a path raises TypeError. -/
theorem C157_path_hemisphere_refuted (b : VortOut.Bound) (hem tol : ℤ) (scale : VortOut.Scale) (saveAll wr : Bool)
    (t : Vort.Table) (ht : Even saveAll t) (hc : b.cyc.times ≠ []) (hd : t.dtime ≠ []) (hh : hemTimes t hem = []) :
    vortWrite wr true b hem tol scale saveAll t = (.ok (), .kept) ∧
    vortWrite wr false b hem tol scale saveAll t = (.error .typeError, .kept) := by
  have hw := (VortOut.C107_no_file b hem tol scale saveAll t ht).2 (.inr ⟨hd, hh⟩)
  have hrec : b.cyc.records ≠ 0 := by
    unfold Cycler.records
    rw [Ne, Int.natCast_eq_zero, List.length_eq_zero_iff]
    exact hc
  refine ⟨(vort_returns wr b hem tol scale saveAll t _).2 (.inl ⟨hw, rfl⟩), ?_⟩
  unfold VortOut.write at hw
  unfold vortWrite
  rw [if_neg hrec] at hw ⊢
  simp only at hw ⊢
  split at hw
  · rename_i h2
    rw [if_pos h2]
    rfl
  · split at hw
    · cases hw
    · split at hw <;> cases hw

/-- One datum of the north, the hemisphere is south. -/
example : vortWrite true false (VortOut.dual VortOut.skewDual 1 (dualCycler [0]) 0) (-1) 60 none false VortOut.oneDatum =
    (.error .typeError, .kept) := by
  refine (C157_path_hemisphere_refuted _ (-1) 60 none false true VortOut.oneDatum (VortOut.oneDatum_even _)
    (by simp [VortOut.dual, dualCycler]) (by simp [VortOut.oneDatum]) ?_).2
  unfold hemTimes VortOut.oneDatum
  have : (SignType.sign (80 : ℝ) : ℤ) = 1 := by rw [sign_pos (by norm_num)]; rfl
  simp [this]

end

/-! ### The SuperMAG driver -/

section
open Ocb.SmagOut (write Even keptTimes smag2ascii setup single Usable)

theorem group_stream (b : SmagOut.Bound) (scale : Option (Scale.F → Scale.F → Scale.F → Scale.F)) (m : SmagOut.Mag)
    (idx : List ℕ) (k : ℤ) : (∀ rs, SmagOut.group b scale m idx k = .ok rs ↔ smagGroup b scale m idx k = (rs, none)) ∧
      ∀ e, SmagOut.group b scale m idx k = .error e ↔ (smagGroup b scale m idx k).2 = some e := by
  unfold SmagOut.group smagGroup
  simp only [bind, Except.bind]
  cases Scale.construct id (SmagOut.vectArgs m scale idx k) with
  | error e => simp
  | ok v =>
    simp only
    cases Scale.setOcb (fun v _ _ => .ok v) { b.bnd with recInd := k } none v with
    | error e => simp
    | ok w => exact ⟨fun rs => stream_ok _ _ _, fun e => stream_error _ _ _⟩

theorem smag_returns (wr : Bool) (b : SmagOut.Bound) (hem tol : ℤ) (scale : Option (Scale.F → Scale.F → Scale.F → Scale.F))
    (m : SmagOut.Mag) (L : Left SmagOut.Row) : smagWrite wr b hem tol scale m = (.ok (), L) ↔
      (write b hem tol scale m = .ok .nothing ∧ L = .kept) ∨
      ∃ rows, write b hem tol scale m = .ok (.file rows) ∧ wr = true ∧ L = .table rows := by
  unfold smagWrite SmagOut.write
  by_cases h1 : b.cyc.records = 0
  · simp [h1, eq_comm]
  · rw [if_neg h1, if_neg h1]
    simp only
    generalize (if (SmagOut.igood m hem).length ≠ m.mlt.length then SmagOut.pickMag (SmagOut.igood m hem) m else m) = m'
    obtain ⟨k1, k2, k3⟩ := smag_drive b.cyc m'.time tol (SmagOut.group b scale m') (smagGroup b scale m')
      (fun g k => (group_stream b scale m' g k).1) (fun g k => (group_stream b scale m' g k).2) _ 0 b.cursor le_rfl
    cases wr with
    | false =>
      simp only [Bool.false_eq_true, not_false_eq_true, if_true, stop, Prod.mk.injEq, reduceCtorEq, false_and, and_false,
        exists_false, or_false, false_iff, not_and]
      intro h
      split at h
      · cases h
      · split at h <;> cases h
    | true =>
      rw [if_neg (by simp), close_ok]
      cases hd : driveGroups b.cyc m'.time tol 0 b.cursor with
      | error e =>
        obtain ⟨e', he⟩ := k3 e hd
        simp only [reduceCtorEq, false_and, exists_false, or_false, iff_false, not_exists, not_and]
        intro rows hr
        rw [hr] at he
        cases he
      | ok l =>
        simp only
        cases hm : mapE (fun g : List ℕ × ℤ => SmagOut.group b scale m' g.1 g.2) l with
        | error e =>
          have := k2 l e hd hm
          simp only [reduceCtorEq, false_and, exists_false, or_false, iff_false, not_exists, not_and]
          intro rows hr
          rw [hr] at this
          cases this
        | ok rs =>
          rw [k1 l rs hd hm]
          simp

/-- C158: `supermag2ascii_ocb`, writing row by row, returns exactly if the input file can be read, the calculation succeeds,
and the output file can be opened if there is something to write.  Then the output file is as before, or has all rows of the
result. -/
theorem C158_smag_returns (float : Vort.Conv) (D : Disk) (n o : Name) (wr : Name → Bool)
    (given : Option SmagOut.Bound) (make : ℤ → ℤ → ℤ → Except PyErr SmagOut.Bound) (hem tol : ℤ)
    (scale : Option (Scale.F → Scale.F → Scale.F → Scale.F)) (L : Left SmagOut.Row) :
    smagFile float D (.text n) (some o) wr given make hem tol scale = (.ok (), L) ↔ Readable D n ∧
      ((smag2ascii float (D.lines n) given make hem tol scale = .ok .nothing ∧ L = .kept) ∨
        ∃ rows, smag2ascii float (D.lines n) given make hem tol scale = .ok (.file rows) ∧ wr o = true ∧
          L = .table rows) := by
  by_cases hr : Readable D n
  · unfold smagFile smag2ascii
    simp only [test_true hr, (C157_read D n hr float fun _ => []).1, bind, Except.bind, hr, true_and, stop]
    cases hl : Smag.load float (D.lines n) with
    | error e => simp
    | ok t =>
      obtain ⟨hd, t⟩ := t
      cases t with
      | none =>
        cases given with
        | none => simp
        | some b =>
          by_cases h0 : b.cyc.records = 0
          · simp only [h0, if_true]
            constructor
            · intro h
              cases h
              exact .inl ⟨trivial, rfl⟩
            · rintro (⟨-, rfl⟩ | ⟨rows, h, -⟩)
              · rfl
              · cases h
          · simp [h0]
      | some t =>
        simp only
        cases hs : setup given make hem tol (SmagOut.ofTable t) with
        | error e => simp
        | ok p => exact smag_returns (wr o) p.1 p.2 tol scale _ L
  · rw [(C157_refused D n hr float fun _ => []).2.2.2]
    simp [hr]

/-- C158, the part that holds for calls that raise: if the input file cannot be read, its content not loaded, the boundary not
found or the output file not opened, the output file is as before. -/
theorem C158_smag_keeps_partial (float : Vort.Conv) (D : Disk) (f : FName) (out : Option Name)
    (wr : Name → Bool) (given : Option SmagOut.Bound) (make : ℤ → ℤ → ℤ → Except PyErr SmagOut.Bound) (hem tol : ℤ)
    (scale : Option (Scale.F → Scale.F → Scale.F → Scale.F)) (r : Except PyErr Unit) (rows : List SmagOut.Row)
    (h : smagFile float D f out wr given make hem tol scale = (r, .table rows)) :
    Readable D f.name ∧ (∃ o, out = some o ∧ wr o = true) ∧
      ∃ hd t b hm, Smag.load float (D.lines f.name) = .ok (hd, some t) ∧
        setup given make hem tol (SmagOut.ofTable t) = .ok (b, hm) ∧ b.cyc.times ≠ [] := by
  have hread : Readable D f.name ∧ testFile D f = .ok true := by
    by_contra hc
    cases f with
    | text n =>
      have hn : ¬ Readable D n := fun h => hc ⟨h, test_true h⟩
      rw [(C157_refused D n hn float fun _ => []).2.2.2] at h
      cases h
    | path n =>
      have hn : ¬ Readable D n := fun h => hc ⟨h, by
        rw [C157_path_partial D n fun _ => h.2.1]; exact test_true h⟩
      rw [(C157_path_refuted D n hn float fun _ => []).2.2] at h
      cases h
  refine ⟨hread.1, ?_⟩
  have hload : loadSmag float D f = Smag.load float (D.lines f.name) := by
    unfold loadSmag
    simp only [hread.2, bind, Except.bind]
    rfl
  unfold smagFile at h
  simp only [hread.2, hload] at h
  cases out with
  | none => cases h
  | some o =>
    simp only at h
    cases hl : Smag.load float (D.lines f.name) with
    | error e => rw [hl] at h; cases h
    | ok q =>
      obtain ⟨hd, t⟩ := q
      rw [hl] at h
      cases t with
      | none =>
        cases given with
        | none => cases h
        | some b =>
          simp only at h
          split at h <;> cases h
      | some t =>
        simp only at h
        cases hs : setup given make hem tol (SmagOut.ofTable t) with
        | error e => rw [hs] at h; cases h
        | ok p =>
          rw [hs] at h
          simp only at h
          unfold smagWrite at h
          split at h
          · cases h
          rename_i hrec
          simp only at h
          split at h
          · cases h
          rename_i hw
          refine ⟨⟨o, rfl, by simpa using hw⟩, hd, t, p.1, p.2, rfl, hs, fun hnil => hrec ?_⟩
          unfold Cycler.records
          rw [hnil]
          rfl

variable {good : ℤ → Prop}

theorem smag_lost (b : SmagOut.Bound) (hb : IsBoundary b.cyc good) (h0 : -1 ≤ b.cursor) (hem tol : ℤ) (htol : 0 ≤ tol)
    (scale : Option (Scale.F → Scale.F → Scale.F → Scale.F)) (m : SmagOut.Mag) (hm : Even m)
    (hD : m.time.Pairwise (· ≤ ·)) (hN : NondecOn b.cyc.times (Cand good b.cursor)) (hc : b.cyc.times ≠ [])
    (hno : NoOverlap b.cyc good b.cursor (keptTimes m hem) tol) :
    smagWrite true b hem tol scale m = (.error .typeError, .table []) := by
  have hrec : b.cyc.records ≠ 0 := by
    unfold Cycler.records
    rw [Ne, Int.natCast_eq_zero, List.length_eq_zero_iff]
    exact hc
  have hdr := (Smag.C59_error_iff hb (SmagOut.cut m hem).time tol htol b.cursor h0 (SmagOut.cut_order hm hem hD) hN
    .typeError).2 ⟨rfl, by rw [SmagOut.cut_times hm hem]; exact hno⟩
  unfold smagWrite
  rw [if_neg hrec]
  simp only
  rw [if_neg (by simp)]
  change close (smagLoop b.cyc (SmagOut.cut m hem).time tol (smagGroup b scale (SmagOut.cut m hem)) 0 b.cursor) = _
  rw [(smag_first hb _ tol htol b.cursor h0 _ _ hdr).2]
  rfl

/-- C158 is false in one case.  For a file and an `OCBoundary` that are in order, with no station at a pole, the call raises
exactly if the complete stations of the hemisphere do not overlap with the records (see C60), and then the old content of the
output file is lost: it has the header line only. -/
theorem C158_smag_lost_refuted (float : Vort.Conv) (D : Disk) (n o : Name) (wr : Name → Bool)
    (given : Option SmagOut.Bound) (make : ℤ → ℤ → ℤ → Except PyErr SmagOut.Bound) (hem tol : ℤ)
    (scale : Option (Scale.F → Scale.F → Scale.F → Scale.F)) (hr : Readable D n) (hw : wr o = true) (hd : List Name)
    (t : Smag.Table) (hload : Smag.load float (D.lines n) = .ok (hd, some t)) (recs : List Coord.Rec) (hm : ℤ) (blat : ℝ)
    (times : List Time.Tod) (cyc : Cycler) (cursor : ℤ)
    (hs : setup given make hem tol (SmagOut.ofTable t) = .ok (single recs hm blat times cyc cursor, hm))
    (hb : IsBoundary cyc good) (h0 : -1 ≤ cursor) (hu : Usable recs times cyc hm) (htol : 0 ≤ tol)
    (ht : Even (SmagOut.ofTable t)) (hlat : ∀ x, some x ∈ (SmagOut.ofTable t).mlat → |x| < 90)
    (hD : (SmagOut.ofTable t).time.Pairwise (· ≤ ·)) (hN : NondecOn cyc.times (Cand good cursor)) (e : PyErr)
    (L : Left SmagOut.Row) :
    smagFile float D (.text n) (some o) wr given make hem tol scale = (.error e, L) ↔
      cyc.times ≠ [] ∧ NoOverlap cyc good cursor (keptTimes (SmagOut.ofTable t) hm) tol ∧ e = .typeError ∧
        L = .table [] := by
  unfold smagFile
  simp only [test_true hr, (C157_read D n hr float fun _ => []).1, hload, hs, hw]
  constructor
  · intro h
    cases hwr : write (single recs hm blat times cyc cursor) hm tol scale (SmagOut.ofTable t) with
    | ok out =>
      cases out with
      | nothing => rw [(smag_returns true _ hm tol scale _ .kept).2 (.inl ⟨hwr, rfl⟩)] at h; cases h
      | file rows => rw [(smag_returns true _ hm tol scale _ (.table rows)).2 (.inr ⟨rows, hwr, rfl, rfl⟩)] at h; cases h
    | error e' =>
      obtain ⟨hc, -, hno⟩ := (SmagOut.C111_fails_iff recs hm blat times cyc cursor hb h0 hu tol htol scale _ ht hlat hD hN
        e').1 hwr
      rw [smag_lost (single recs hm blat times cyc cursor) hb h0 hm tol htol scale _ ht hD hN hc hno] at h
      cases h
      exact ⟨hc, hno, rfl, rfl⟩
  · rintro ⟨hc, hno, rfl, rfl⟩
    exact smag_lost (single recs hm blat times cyc cursor) hb h0 hm tol htol scale _ ht hD hN hc hno

/-- One station of the north at time 0. -/
noncomputable def oneStation : SmagOut.Mag :=
  ⟨[0], ["THL".toList], [-10], [10], [some 90], [some 80], [some 6], [some 1], [some 1], [some 1]⟩

/-- One station at time 0, one record 1000 s before: the output file is emptied. -/
example : smagWrite true (single [Coord.exRec] 1 74 [⟨0, 0, 0, 0⟩] (dualCycler [-1000]) 0) 1 60 none oneStation =
    (.error .typeError, .table []) := by
  have hk : keptTimes oneStation 1 = [0] := by
    have : SmagOut.Kept oneStation 1 0 :=
      ⟨80, 6, 1, 1, 1, ⟨rfl, rfl, rfl, rfl, rfl⟩, by rw [sign_pos (by norm_num)]; rfl⟩
    simp [keptTimes, oneStation] at this ⊢
    simp [this]
  refine smag_lost _ (.dual [-1000] (by simp)) (by simp [single]) 1 60 (by norm_num) none oneStation
    ⟨rfl, rfl, rfl, rfl, rfl, rfl, rfl, rfl, rfl⟩ (by simp [oneStation]) ?_ (by simp [single, dualCycler]) ?_
  · intro a b s t _ _ _ ⟨_, h1⟩ ⟨_, h2⟩
    have e1 := List.mem_of_getElem? h1
    have e2 := List.mem_of_getElem? h2
    simp only [single, dualCycler, List.mem_singleton] at e1 e2
    omega
  · rw [hk]
    refine ⟨⟨0, rfl⟩, .inr ⟨⟨0, -1000, ⟨le_rfl, rfl⟩, le_rfl, .inl rfl⟩, fun k t d hk _ hd => ?_⟩⟩
    have e1 := List.mem_of_getElem? hk.2
    simp only [single, dualCycler, List.mem_singleton] at e1
    obtain rfl : (0 : ℤ) = d := by simpa using hd
    omega

end

end Ocb.OutFile
