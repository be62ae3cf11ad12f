import Verif.Model.Ascii
import Verif.Props.ConvertTime
import Verif.Props.Vort

/-!
# Properties of `load_ascii_data` (C100-C105)
-/

set_option autoImplicit false

namespace Ocb.Ascii

open Ocb.Files (Name lower)
open Ocb.Text
open Ocb.Vort (F Conv toFloat)
open Ocb.Smag (words wordsAux)

/-! ### What is claimed -/

/-- The type that the arguments ask for in one column: text for the columns of the time, unless whole numbers were asked for
or the part is the seconds of the day, and for the columns of text; else whole numbers where asked for; else numbers. -/
noncomputable def wanted (a : Args) (ints : List ℕ) (j : ℕ) : Ty :=
  open Classical in
  if j ∈ a.strCols ∨ a.fmt ≠ none ∧ j ∉ ints ∧ ∃ (i : ℕ) (p : Name), a.dateCols[i]? = some j ∧
      (parts a.fmt)[i]? = some p ∧ find "SOD".toList (upper p) = none then .str (strLen a)
  else if j ∈ ints then .int
  else .float

/-- One column: the values are those of the cells `w` of the rows, in the order of the rows. -/
def Column (float : Conv) (ty : Ty) (cells : List (Option Name)) (vs : List Val) : Prop :=
  List.Forall₂ (fun c v => ∃ w, c = some w ∧ cast float ty w = .ok v) cells vs

/-! ### The loops -/

theorem addRow_ok {float : Conv} {tys : List Ty} {l : Line} : ∀ {ks : List (Name × ℕ)} {t t' : Table},
    addRow float tys l ks t = .ok t' → (ks.map Prod.fst).Nodup →
    (∀ k num, (k, num) ∈ ks → ∃ w ty v, fetch l num = .ok w ∧ tys[num]? = some ty ∧ cast float ty w = .ok v ∧
      t' k = t k ++ [v]) ∧ ∀ k, k ∉ ks.map Prod.fst → t' k = t k
  | [], t, t', h, _ => by
    simp only [addRow, Except.ok.injEq] at h
    subst h
    exact ⟨fun _ _ h => (List.not_mem_nil h).elim, fun _ _ => rfl⟩
  | (k, num) :: ks, t, t', h, hn => by
    simp only [addRow, bind, Except.bind] at h
    cases hw : fetch l num with
    | error e => simp [hw] at h
    | ok w =>
      simp only [hw] at h
      cases ht : tys[num]? with
      | none => simp [ht] at h
      | some ty =>
        simp only [ht] at h
        cases hv : cast float ty w with
        | error e => simp [hv] at h
        | ok v =>
          simp only [hv] at h
          rw [List.map_cons, List.nodup_cons] at hn
          obtain ⟨h1, h2⟩ := addRow_ok h hn.2
          refine ⟨?_, ?_⟩
          · intro k' num' hm
            rcases List.mem_cons.1 hm with he | hm'
            · cases he
              exact ⟨w, ty, v, hw, ht, hv, by rw [h2 _ hn.1]; simp [put]⟩
            · obtain ⟨w', ty', v', a1, a2, a3, a4⟩ := h1 k' num' hm'
              have hne : k' ≠ k := by
                rintro rfl
                exact hn.1 (List.mem_map.2 ⟨_, hm', rfl⟩)
              exact ⟨w', ty', v', a1, a2, a3, by rw [a4]; simp [put, hne]⟩
          · intro k' hk'
            rw [List.map_cons, List.mem_cons, not_or] at hk'
            rw [h2 _ hk'.2]
            simp [put, hk'.1]

theorem zip_fst (keys : List Name) (n : ℕ) : (keys.zipIdx n).map Prod.fst = keys := by
  induction keys generalizing n with
  | nil => rfl
  | cons k ks ih => simp [List.zipIdx_cons, ih]

theorem zip_mem {keys : List Name} {j : ℕ} {k : Name} (h : keys[j]? = some k) : (k, j) ∈ keys.zipIdx := by
  rw [List.mem_zipIdx_iff_getElem?]
  exact h

/-- All rows: the ordinary columns. -/
theorem addRows_cols {float : Conv} {tys : List Ty} {ps keys : List Name} {dc : List ℕ} {dt : Option (Name × Name)}
    (hn : (keys ++ (dt.map Prod.fst).toList).Nodup) {j : ℕ} {k : Name} (hk : keys[j]? = some k) :
    ∀ {ls : List Line} {t t' : Table}, addRows float tys ps keys dc dt ls t = .ok t' →
    ∃ vs, t' k = t k ++ vs ∧ List.Forall₂ (fun l v => ∃ w ty, fetch l j = .ok w ∧ tys[j]? = some ty ∧
      cast float ty w = .ok v) ls vs
  | [], t, t', h => by
    simp only [addRows, Except.ok.injEq] at h
    subst h
    exact ⟨[], by simp, .nil⟩
  | l :: ls, t, t', h => by
    simp only [addRows, bind, Except.bind] at h
    have hkm : k ∈ keys := List.mem_of_getElem? hk
    cases hr : addRow float tys l keys.zipIdx t with
    | error e => simp [hr] at h
    | ok t1 =>
      simp only [hr] at h
      obtain ⟨h1, -⟩ := addRow_ok hr (by rw [zip_fst]; exact (List.nodup_append.1 hn).1)
      obtain ⟨w, ty, v, a1, a2, a3, a4⟩ := h1 k j (zip_mem hk)
      cases dt with
      | none =>
        simp only at h
        obtain ⟨vs, b1, b2⟩ := addRows_cols hn hk h
        exact ⟨v :: vs, by rw [b1, a4]; simp, .cons ⟨w, ty, a1, a2, a3⟩ b2⟩
      | some d =>
        obtain ⟨dk, fmt⟩ := d
        simp only at h
        cases hg : gather float tys ps l dc.zipIdx TimeIn.empty with
        | error e => simp [hg] at h
        | ok ti =>
          simp only [hg] at h
          cases hx : toTime ti fmt with
          | error e => simp [hx] at h
          | ok x =>
            simp only [hx] at h
            obtain ⟨vs, b1, b2⟩ := addRows_cols hn hk h
            have hne : k ≠ dk := by
              rintro rfl
              exact (List.nodup_append.1 hn).2.2 k hkm k (by simp) rfl
            exact ⟨v :: vs, by rw [b1]; simp [put, hne, a4], .cons ⟨w, ty, a1, a2, a3⟩ b2⟩

/-- All rows: the column of the times. -/
theorem addRows_time {float : Conv} {tys : List Ty} {ps keys : List Name} {dc : List ℕ} {dk fmt : Name}
    (hn : (keys ++ [dk]).Nodup) :
    ∀ {ls : List Line} {t t' : Table}, addRows float tys ps keys dc (some (dk, fmt)) ls t = .ok t' →
    ∃ vs, t' dk = t dk ++ vs ∧ List.Forall₂ (fun l v => ∃ ti x, gather float tys ps l dc.zipIdx TimeIn.empty = .ok ti ∧
      toTime ti fmt = .ok x ∧ v = .time x) ls vs
  | [], t, t', h => by
    simp only [addRows, Except.ok.injEq] at h
    subst h
    exact ⟨[], by simp, .nil⟩
  | l :: ls, t, t', h => by
    simp only [addRows, bind, Except.bind] at h
    cases hr : addRow float tys l keys.zipIdx t with
    | error e => simp [hr] at h
    | ok t1 =>
      simp only [hr] at h
      obtain ⟨-, h2⟩ := addRow_ok hr (by rw [zip_fst]; exact (List.nodup_append.1 hn).1)
      cases hg : gather float tys ps l dc.zipIdx TimeIn.empty with
      | error e => simp [hg] at h
      | ok ti =>
        simp only [hg] at h
        cases hx : toTime ti fmt with
        | error e => simp [hx] at h
        | ok x =>
          simp only [hx] at h
          obtain ⟨vs, b1, b2⟩ := addRows_time hn h
          have hne : dk ∉ keys := fun hm => (List.nodup_append.1 hn).2.2 dk hm dk (by simp) rfl
          exact ⟨.time x :: vs, by rw [b1]; simp [put, h2 dk (by rwa [zip_fst])], .cons ⟨ti, x, hg, hx, rfl⟩ b2⟩

/-! ### The types -/

theorem setTy_get {t : Ty} : ∀ {is : List ℕ} {l l' : List Ty}, setTy t is l = .ok l' → l'.length = l.length ∧
    ∀ j, l'[j]? = if j ∈ is then some t else l[j]?
  | [], l, l', h => by
    simp only [setTy, Except.ok.injEq] at h
    subst h
    simp
  | i :: is, l, l', h => by
    rw [setTy] at h
    split at h
    · rename_i hi
      obtain ⟨h1, h2⟩ := setTy_get h
      refine ⟨by simpa using h1, fun j => ?_⟩
      rw [h2, List.getElem?_set]
      by_cases hj : j ∈ is
      · simp [hj]
      · by_cases hij : i = j
        · subst hij; simp [hi]
        · have : j ≠ i := fun h => hij h.symm
          simp [hj, hij, this]
    · simp at h

theorem setTy_ok (t : Ty) : ∀ (is : List ℕ) (l : List Ty), (∀ i ∈ is, i < l.length) → ∃ l', setTy t is l = .ok l'
  | [], l, _ => ⟨l, rfl⟩
  | i :: is, l, h => by
    rw [setTy, if_pos (h i (by simp))]
    exact setTy_ok t is _ fun k hk => by simpa using h k (by simp [hk])

/-- Whether a list of date columns with their places turns a column to text -/
def Texts (ints : List ℕ) (ps : List Name) (cs : List (ℕ × ℕ)) (j : ℕ) : Prop :=
  j ∉ ints ∧ ∃ i p, (j, i) ∈ cs ∧ ps[i]? = some p ∧ find "SOD".toList (upper p) = none

theorem dateTys_get {n : ℕ} {ints : List ℕ} {ps : List Name} : ∀ {cs : List (ℕ × ℕ)} {l l' : List Ty},
    dateTys n ints ps cs l = .ok l' → l'.length = l.length ∧
    ∀ j, (Texts ints ps cs j → l'[j]? = some (.str n)) ∧ (¬ Texts ints ps cs j → l'[j]? = l[j]?)
  | [], l, l', h => by
    simp only [dateTys, Except.ok.injEq] at h
    subst h
    exact ⟨rfl, fun j => ⟨fun ⟨_, i, p, hm, _⟩ => (List.not_mem_nil hm).elim, fun _ => rfl⟩⟩
  | (c, i) :: cs, l, l', h => by
    rw [dateTys] at h
    have weaken : ∀ j, Texts ints ps cs j → Texts ints ps ((c, i) :: cs) j :=
      fun j ⟨h1, i', p, hm, h2⟩ => ⟨h1, i', p, List.mem_cons_of_mem _ hm, h2⟩
    split at h
    · rename_i hc
      obtain ⟨h1, h2⟩ := dateTys_get h
      have hiff : ∀ j, Texts ints ps ((c, i) :: cs) j → Texts ints ps cs j := by
        rintro j ⟨a1, i', p, hm, a2⟩
        rcases List.mem_cons.1 hm with he | hm
        · cases he; exact (a1 hc).elim
        · exact ⟨a1, i', p, hm, a2⟩
      exact ⟨h1, fun j => ⟨fun ht => (h2 j).1 (hiff j ht), fun ht => (h2 j).2 fun hh => ht (weaken j hh)⟩⟩
    · rename_i hc
      split at h
      · simp at h
      · rename_i p hp
        split at h
        · rename_i hs
          split at h
          · rename_i hlt
            obtain ⟨h1, h2⟩ := dateTys_get h
            refine ⟨by simpa using h1, fun j => ⟨fun ht => ?_, fun ht => ?_⟩⟩
            · by_cases hj : Texts ints ps cs j
              · exact (h2 j).1 hj
              · obtain ⟨a1, i', p', hm, a2⟩ := ht
                rcases List.mem_cons.1 hm with he | hm
                · cases he
                  rw [(h2 _).2 hj, List.getElem?_set_self hlt]
                · exact (hj ⟨a1, i', p', hm, a2⟩).elim
            · have hne : c ≠ j := by
                rintro rfl
                exact ht ⟨hc, i, p, by simp, hp, hs⟩
              rw [(h2 j).2 fun hh => ht (weaken j hh), List.getElem?_set_ne hne]
          · simp at h
        · rename_i hs
          obtain ⟨h1, h2⟩ := dateTys_get h
          have hiff : ∀ j, Texts ints ps ((c, i) :: cs) j → Texts ints ps cs j := by
            rintro j ⟨a1, i', p', hm, a2, a3⟩
            rcases List.mem_cons.1 hm with he | hm
            · cases he
              rw [hp] at a2
              cases a2
              exact (hs a3).elim
            · exact ⟨a1, i', p', hm, a2, a3⟩
          exact ⟨h1, fun j => ⟨fun ht => (h2 j).1 (hiff j ht), fun ht => (h2 j).2 fun hh => ht (weaken j hh)⟩⟩

theorem colTys_get {a : Args} {ints : List ℕ} {n : ℕ} {tys : List Ty} (h : colTys a ints n = .ok tys) :
    tys.length = n ∧ ∀ j, j < n → tys[j]? = some (wanted a ints j) := by
  simp only [colTys, bind, Except.bind] at h
  cases h1 : setTy .int ints (List.replicate n .float) with
  | error e => simp [h1] at h
  | ok l1 =>
    simp only [h1] at h
    obtain ⟨n1, g1⟩ := setTy_get h1
    cases h2 : setTy (.str (strLen a)) a.strCols l1 with
    | error e => simp [h2] at h
    | ok l2 =>
      simp only [h2] at h
      obtain ⟨n2, g2⟩ := setTy_get h2
      have base : ∀ j, j < n → l2[j]? = some (if j ∈ a.strCols then .str (strLen a) else if j ∈ ints then .int else .float) := by
        intro j hj
        rw [g2, g1]
        by_cases hs : j ∈ a.strCols
        · simp [hs]
        · by_cases hi : j ∈ ints
          · simp [hs, hi]
          · simp [hs, hi, hj]
      have hlen : l2.length = n := by rw [n2, n1]; simp
      have noTime : (a.fmt = none ∨ a.dateCols = []) → ∀ j, j < n → l2[j]? = some (wanted a ints j) := by
        intro hor j hj
        rw [base j hj, wanted]
        have : ¬ (a.fmt ≠ none ∧ j ∉ ints ∧ ∃ (i : ℕ) (p : Name), a.dateCols[i]? = some j ∧
            (parts a.fmt)[i]? = some p ∧ find "SOD".toList (upper p) = none) := by
          rintro ⟨h1, -, i, p, h2, -⟩
          rcases hor with hor | hor
          · exact h1 hor
          · simp [hor] at h2
        simp only [this, or_false]
      cases hf : a.fmt with
      | none =>
        simp only [hf, pure, Except.pure, Except.ok.injEq] at h
        subst h
        exact ⟨hlen, noTime (.inl hf)⟩
      | some f =>
        simp only [hf, pure, Except.pure] at h
        split at h
        · rename_i hd
          simp only [Except.ok.injEq] at h
          subst h
          exact ⟨hlen, noTime (.inr hd)⟩
        · obtain ⟨n3, g3⟩ := dateTys_get h
          refine ⟨n3.trans hlen, fun j hj => ?_⟩
          have hT : Texts ints (parts (some f)) a.dateCols.zipIdx j ↔ (a.fmt ≠ none ∧ j ∉ ints ∧ ∃ (i : ℕ) (p : Name),
              a.dateCols[i]? = some j ∧ (parts a.fmt)[i]? = some p ∧ find "SOD".toList (upper p) = none) := by
            simp only [Texts, List.mem_zipIdx_iff_getElem?, hf]
            simp
          rw [wanted]
          by_cases ht : Texts ints (parts (some f)) a.dateCols.zipIdx j
          · rw [(g3 j).1 ht, if_pos (.inr (hT.1 ht))]
          · rw [(g3 j).2 ht, base j hj]
            have := mt hT.2 ht
            simp only [this, or_false]

/-! ### The whole function -/

/-- What a call that reads columns has done. -/
theorem load_ok {float : Conv} {a : Args} {f : File} {r : Res} (h : load float a f = .ok r) (hg : f.good = true)
    (hh : moreHeader a f ≠ []) :
    ∃ ints tys dt lines, moreInts a = .ok ints ∧ colTys a ints (keyList a (moreHeader a f)).length = .ok tys ∧
      timeKey a (keyList a (moreHeader a f)) = .ok dt ∧ toLines f.rows = .ok lines ∧
      addRows float tys (parts a.fmt) (keyList a (moreHeader a f)) a.dateCols dt lines (fun _ => []) = .ok r.out ∧
      r.header = moreHeader a f ∧ r.intCols = ints ∧ r.keys = keyList a (moreHeader a f) ++ (dt.map Prod.fst).toList ∧
      ∀ k ∈ r.keys, r.out k ≠ [] := by
  simp only [load, hg, Bool.true_eq_false, if_false, bind, Except.bind, pure, Except.pure] at h
  cases h1 : moreInts a with
  | error e => simp [h1] at h
  | ok ints =>
    simp only [h1, hh, if_false] at h
    cases h2 : colTys a ints (keyList a (moreHeader a f)).length with
    | error e => simp [h2] at h
    | ok tys =>
      simp only [h2] at h
      cases h3 : timeKey a (keyList a (moreHeader a f)) with
      | error e => simp [h3] at h
      | ok dt =>
        simp only [h3] at h
        cases h4 : toLines f.rows with
        | error e => simp [h4] at h
        | ok lines =>
          simp only [h4] at h
          cases h5 : addRows float tys (parts a.fmt) (keyList a (moreHeader a f)) a.dateCols dt lines (fun _ => []) with
          | error e => simp [h5] at h
          | ok out =>
            simp only [h5] at h
            split at h
            · simp at h
            · rename_i hany
              simp only [Except.ok.injEq] at h
              subst h
              refine ⟨ints, tys, dt, lines, rfl, h2, rfl, rfl, h5, rfl, rfl, rfl, fun k hk he => hany ?_⟩
              rw [List.any_eq_true]
              have he' : out k = [] := he
              exact ⟨k, hk, by simp [he']⟩

/-- Whether a column of times is asked for -/
def Timed (a : Args) : Prop := a.fmt ≠ none ∧ a.dateCols ≠ []

/-- The names of the columns of the file: the column of the times, if there is one, is the last key. -/
noncomputable def Res.names (a : Args) (r : Res) : List Name :=
  open Classical in if Timed a then r.keys.dropLast else r.keys

theorem names_eq {a : Args} {r : Res} {keys : List Name} {dt : Option (Name × Name)} (h1 : timeKey a keys = .ok dt)
    (h2 : r.keys = keys ++ (dt.map Prod.fst).toList) : r.names a = keys := by
  rw [timeKey] at h1
  cases hf : a.fmt with
  | none =>
    simp only [hf, Except.ok.injEq] at h1
    subst h1
    rw [Res.names, if_neg (by simp [Timed, hf]), h2]
    simp
  | some f =>
    simp only [hf] at h1
    split at h1
    · rename_i hd
      simp only [Except.ok.injEq] at h1
      subst h1
      rw [Res.names, if_neg (by simp [Timed, hd]), h2]
      simp
    · rename_i hd
      cases hk : freeKey keys dtKeys with
      | error e => simp [hk, Except.map] at h1
      | ok k =>
        simp only [hk, Except.map, Except.ok.injEq] at h1
        subst h1
        rw [Res.names, if_pos ⟨by simp [hf], hd⟩, h2]
        simp

theorem lines_table {rows : List (List Name)} {lines : List Line} (h : toLines rows = .ok lines) (hr : 2 ≤ rows.length)
    (hc : ∀ row ∈ rows, 2 ≤ row.length) : lines = rows.map .row := by
  match rows, hr with
  | r :: r' :: rs, _ =>
    simp only [toLines] at h
    split at h
    · have h2 := hc r (by simp)
      match r, h2 with
      | _ :: _ :: _, _ =>
        simp only [Except.ok.injEq] at h
        exact h.symm
    · simp at h

theorem lines_one {row : List Name} {lines : List Line} (h : toLines [row] = .ok lines) : lines = row.map .cell ∧
    row.length ≠ 1 := by
  simp only [toLines, List.all_nil, if_true] at h
  match row with
  | [] => simp only [Except.ok.injEq] at h; exact ⟨h.symm, by simp⟩
  | [_] => simp at h
  | _ :: _ :: _ => simp only [Except.ok.injEq] at h; exact ⟨h.symm, by simp⟩

theorem forall_map {α β γ : Type} {R : β → γ → Prop} {g : α → β} : ∀ {l : List α} {m : List γ},
    List.Forall₂ R (l.map g) m ↔ List.Forall₂ (fun x y => R (g x) y) l m := by
  intro l m
  exact List.forall₂_map_left_iff

/-- The columns of the lines of the loop -/
theorem load_cols {float : Conv} {a : Args} {f : File} {r : Res} (h : load float a f = .ok r) (hg : f.good = true)
    (hh : moreHeader a f ≠ []) (hn : r.keys.Nodup) {j : ℕ} {k : Name} (hk : (r.names a)[j]? = some k) :
    ∃ lines, toLines f.rows = .ok lines ∧
      List.Forall₂ (fun l v => ∃ w, fetch l j = .ok w ∧ cast float (wanted a r.intCols j) w = .ok v) lines (r.out k) := by
  obtain ⟨ints, tys, dt, lines, h1, h2, h3, h4, h5, h6, h7, h8, -⟩ := load_ok h hg hh
  rw [names_eq h3 h8] at hk
  obtain ⟨vs, b1, b2⟩ := addRows_cols (h8 ▸ hn) hk h5
  refine ⟨lines, h4, ?_⟩
  rw [b1, List.nil_append]
  refine b2.imp ?_
  rintro l v ⟨w, ty, c1, c2, c3⟩
  have hj : j < (keyList a (moreHeader a f)).length := (List.getElem?_eq_some_iff.1 hk).1
  rw [(colTys_get h2).2 j hj, Option.some.injEq] at c2
  subst c2
  exact ⟨w, c1, h7 ▸ c3⟩

/-- C100 as far as it holds: from a file with at least two rows and two columns, and with different names, each name gets the
values of its column, in the order of the rows and in the type that was asked for. -/
theorem C100_columns_partial {float : Conv} {a : Args} {f : File} {r : Res} (h : load float a f = .ok r)
    (hg : f.good = true) (hh : a.hlines ≠ 0 ∨ a.header ≠ []) (hr : 2 ≤ f.rows.length) (hc : ∀ row ∈ f.rows, 2 ≤ row.length)
    (hn : r.keys.Nodup) {j : ℕ} {k : Name} (hk : (r.names a)[j]? = some k) :
    Column float (wanted a r.intCols j) (f.rows.map (·[j]?)) (r.out k) := by
  obtain ⟨lines, h1, h2⟩ := load_cols h hg (by
    rw [moreHeader]
    rcases hh with hh | hh
    · have : List.range a.hlines ≠ [] := by simpa using hh
      simp [hh]
    · simp [hh]) hn hk
  rw [lines_table h1 hr hc, forall_map] at h2
  rw [Column, forall_map]
  refine h2.imp ?_
  rintro row v ⟨w, c1, c2⟩
  refine ⟨w, ?_, c2⟩
  simp only [fetch] at c1
  split at c1
  · simp at c1
  · rename_i w' hw
    simp only [Except.ok.injEq] at c1
    rw [hw, c1]

/-- C100 fails for a file with a single row: every name gets the values of all columns. -/
theorem C100_one_row_refuted {float : Conv} {a : Args} {f : File} {r : Res} (h : load float a f = .ok r)
    (hg : f.good = true) (hh : moreHeader a f ≠ []) {row : List Name} (hr : f.rows = [row])
    (hn : r.keys.Nodup) {j : ℕ} {k : Name} (hk : (r.names a)[j]? = some k) :
    Column float (wanted a r.intCols j) (row.map some) (r.out k) ∧ row.length ≠ 1 := by
  obtain ⟨lines, h1, h2⟩ := load_cols h hg hh hn hk
  rw [hr] at h1
  obtain ⟨e1, e2⟩ := lines_one h1
  refine ⟨?_, e2⟩
  rw [e1, forall_map] at h2
  rw [Column, forall_map]
  refine h2.imp ?_
  rintro w v ⟨w', c1, c2⟩
  simp only [fetch] at c1
  split at c1
  · simp only [Except.ok.injEq] at c1
    exact ⟨w', by rw [c1], c2⟩
  · simp at c1

theorem addRow_len {float : Conv} {tys : List Ty} {l : Line} (k : Name) : ∀ {ks : List (Name × ℕ)} {t t' : Table},
    addRow float tys l ks t = .ok t' → (t' k).length = (t k).length + (ks.map Prod.fst).count k
  | [], t, t', h => by
    simp only [addRow, Except.ok.injEq] at h
    subst h
    simp
  | (k', num) :: ks, t, t', h => by
    simp only [addRow, bind, Except.bind] at h
    cases hw : fetch l num with
    | error e => simp [hw] at h
    | ok w =>
      simp only [hw] at h
      cases ht : tys[num]? with
      | none => simp [ht] at h
      | some ty =>
        simp only [ht] at h
        cases hv : cast float ty w with
        | error e => simp [hv] at h
        | ok v =>
          simp only [hv] at h
          rw [addRow_len k h, List.map_cons, List.count_cons]
          by_cases hk : k = k'
          · simp [put, hk]; omega
          · have : ¬ k' = k := fun h => hk h.symm
            simp [put, hk, this]

theorem addRows_len {float : Conv} {tys : List Ty} {ps keys : List Name} {dc : List ℕ} {dt : Option (Name × Name)}
    (k : Name) (hk : ∀ d ∈ dt, d.1 ≠ k) : ∀ {ls : List Line} {t t' : Table},
    addRows float tys ps keys dc dt ls t = .ok t' → (t' k).length = (t k).length + ls.length * keys.count k
  | [], t, t', h => by
    simp only [addRows, Except.ok.injEq] at h
    subst h
    simp
  | l :: ls, t, t', h => by
    simp only [addRows, bind, Except.bind] at h
    cases hr : addRow float tys l keys.zipIdx t with
    | error e => simp [hr] at h
    | ok t1 =>
      simp only [hr] at h
      have e1 := addRow_len k hr
      rw [zip_fst] at e1
      have e2 : (l :: ls).length * keys.count k = ls.length * keys.count k + keys.count k := by
        rw [List.length_cons, Nat.succ_mul]
      cases dt with
      | none =>
        simp only at h
        rw [addRows_len k hk h, e2]
        omega
      | some d =>
        obtain ⟨dk, fmt⟩ := d
        simp only at h
        cases hg : gather float tys ps l dc.zipIdx TimeIn.empty with
        | error e => simp [hg] at h
        | ok ti =>
          simp only [hg] at h
          cases hx : toTime ti fmt with
          | error e => simp [hx] at h
          | ok x =>
            simp only [hx] at h
            have hne : k ≠ dk := fun he => hk (dk, fmt) rfl he.symm
            rw [addRows_len k hk h, e2]
            simp only [put, hne, if_false]
            omega

theorem freeKey_ok {keys : List Name} {k : Name} : ∀ {l : List Name}, freeKey keys l = .ok k → k ∉ keys ∧
    ∃ i : ℕ, l[i]? = some k ∧ ∀ (i' : ℕ) (k' : Name), i' < i → l[i']? = some k' → k' ∈ keys
  | [], h => by simp [freeKey] at h
  | k' :: ks, h => by
    rw [freeKey] at h
    split at h
    · rename_i hm
      obtain ⟨h1, i, h2, h3⟩ := freeKey_ok h
      refine ⟨h1, i + 1, by simpa using h2, fun i' k'' hi hk => ?_⟩
      cases i' with
      | zero => simp only [List.getElem?_cons_zero, Option.some.injEq] at hk; exact hk ▸ hm
      | succ i' => exact h3 i' k'' (by omega) (by simpa using hk)
    · rename_i hm
      simp only [Except.ok.injEq] at h
      exact h ▸ ⟨hm, 0, rfl, fun i' _ hi => by omega⟩

theorem timeKey_free {a : Args} {keys : List Name} {d : Name × Name} (h : timeKey a keys = .ok (some d)) :
    a.fmt = some d.2 ∧ a.dateCols ≠ [] ∧ d.1 ∉ keys ∧
      ∃ i : ℕ, dtKeys[i]? = some d.1 ∧ ∀ (i' : ℕ) (k' : Name), i' < i → dtKeys[i']? = some k' → k' ∈ keys := by
  rw [timeKey] at h
  cases hf : a.fmt with
  | none => simp [hf] at h
  | some f =>
    simp only [hf] at h
    split at h
    · simp at h
    · rename_i hd
      cases hk : freeKey keys dtKeys with
      | error e => simp [hk, Except.map] at h
      | ok k =>
        simp only [hk, Except.map, Except.ok.injEq, Option.some.injEq] at h
        subst h
        obtain ⟨h1, h2⟩ := freeKey_ok hk
        exact ⟨rfl, hd, h1, h2⟩

/-- C100 fails for a name that stands several times in the header: it gets one value from each of its columns in each row,
so that the rows cannot be told apart by position. -/
theorem C100_repeated_refuted {float : Conv} {a : Args} {f : File} {r : Res} (h : load float a f = .ok r)
    (hg : f.good = true) (hh : moreHeader a f ≠ []) (hr : 2 ≤ f.rows.length) (hc : ∀ row ∈ f.rows, 2 ≤ row.length)
    {k : Name} (hk : 2 ≤ (r.names a).count k) : (r.out k).length = f.rows.length * (r.names a).count k ∧
      f.rows.length < (r.out k).length := by
  obtain ⟨ints, tys, dt, lines, h1, h2, h3, h4, h5, h6, h7, h8, -⟩ := load_ok h hg hh
  rw [names_eq h3 h8] at hk ⊢
  have hm : k ∈ keyList a (moreHeader a f) := List.count_pos_iff.1 (by omega)
  have e := addRows_len k (by
    rintro d hd rfl
    rw [Option.mem_def] at hd
    subst hd
    exact (timeKey_free h3).2.2.1 hm) h5
  rw [lines_table h4 hr hc] at e
  simp only [List.length_nil, List.length_map, Nat.zero_add] at e
  refine ⟨e, ?_⟩
  rw [e]
  nlinarith

/-! ### Times -/

/-- Texts with blanks between -/
def glue (l : List Name) : Name := List.intercalate [' '] l

theorem glue_cons (w : Name) {l : List Name} (h : l ≠ []) : glue (w :: l) = w ++ ' ' :: glue l := by
  cases l with
  | nil => exact (h rfl).elim
  | cons x xs => simp [glue, List.intercalate, List.intersperse]

theorem glue_append {l m : List Name} (hl : l ≠ []) (hm : m ≠ []) : glue (l ++ m) = glue l ++ ' ' :: glue m := by
  induction l with
  | nil => exact (hl rfl).elim
  | cons w l ih =>
    by_cases h : l = []
    · subst h
      rw [List.singleton_append, glue_cons w hm]
      simp [glue, List.intercalate]
    · rw [List.cons_append, glue_cons w (by simp [h]), ih h, glue_cons w h]
      simp

/-- A date or time of day to which texts are joined one after the other -/
def glueTo (o : Option Val) (l : List Name) : Option Val :=
  match l with
  | [] => o
  | l =>
    match o with
    | none => some (.txt (glue l))
    | some (.txt a) => some (.txt (a ++ ' ' :: glue l))
    | o => o

/-- A date or time of day that texts can be joined to -/
def Joins (o : Option Val) : Prop := o = none ∨ ∃ a, o = some (.txt a)

theorem join_glue {o : Option Val} (h : Joins o) (w : Name) : ∃ o', join o (.txt w) = .ok o' ∧ Joins o' ∧
    ∀ l, glueTo o' l = glueTo o (w :: l) := by
  rcases h with rfl | ⟨a, rfl⟩
  · refine ⟨_, rfl, .inr ⟨_, rfl⟩, fun l => ?_⟩
    cases l with
    | nil => simp [glueTo, glue, List.intercalate]
    | cons x xs => simp only [glueTo]; rw [glue_cons w (by simp)]
  · refine ⟨_, rfl, .inr ⟨_, rfl⟩, fun l => ?_⟩
    cases l with
    | nil => simp [glueTo, glue, List.intercalate]
    | cons x xs => simp only [glueTo]; rw [glue_cons w (by simp)]; simp

/-- The letters of the directives of `strptime` that belong to a time of day: hours, half of the day, minutes, seconds,
microseconds and zone -/
def clockLetters : Name := ['H', 'I', 'M', 'S', 'f', 'p', 'z', 'Z']

theorem clock_letters (c : Char) : c ∈ timeLetters ↔ c ∈ clockLetters :=
  (show timeLetters.Perm clockLetters by decide).mem_iff

/-- A part of a format that gives a time of day -/
def IsTime (p : Name) : Prop := ∃ c cs, p = '%' :: c :: cs ∧ c ∈ clockLetters

/-- A part of a format that gives a date -/
def IsDate (p : Name) : Prop := ∃ c cs, p = '%' :: c :: cs ∧ c ∉ clockLetters

theorem gather_append (float : Conv) (tys : List Ty) (ps : List Name) (l : Line) : ∀ (cs cs' : List (ℕ × ℕ)) (t : TimeIn),
    gather float tys ps l (cs ++ cs') t = (gather float tys ps l cs t).bind fun t => gather float tys ps l cs' t
  | [], cs', t => rfl
  | (c, i) :: cs, cs', t => by
    simp only [List.cons_append, gather, bind, Except.bind]
    cases fetchDate l c with
    | error e => rfl
    | ok w =>
      simp only
      cases tys[c]? with
      | none => rfl
      | some ty =>
        simp only
        cases cast float ty w with
        | error e => rfl
        | ok v =>
          simp only
          cases ps[i]? with
          | none => rfl
          | some p =>
            simp only
            cases addPart float p v t with
            | error e => rfl
            | ok t1 =>
              simp only
              rw [gather_append]
              rfl

/-- The cells of some columns, cut to the width of the texts -/
def cells (row : List Name) (n : ℕ) (cols : List ℕ) : List Name := cols.map fun c => (row.getD c []).take n

theorem gather_step {float : Conv} {tys : List Ty} {ps : List Name} {row : List Name} {n c i : ℕ} {cs : List (ℕ × ℕ)}
    {t t' : TimeIn} {p : Name} (ht : tys[c]? = some (.str n)) (hp : ps[i]? = some p)
    (h : gather float tys ps (.row row) ((c, i) :: cs) t = .ok t') :
    c < row.length ∧ ∃ t1, addPart float p (.txt ((row.getD c []).take n)) t = .ok t1 ∧
      gather float tys ps (.row row) cs t1 = .ok t' := by
  simp only [gather, bind, Except.bind, fetchDate] at h
  cases hr : row[c]? with
  | none => simp [hr] at h
  | some w =>
    simp only [hr, ht, hp, cast] at h
    have hw : row.getD c [] = w := by simp [List.getD_eq_getElem?_getD, hr]
    rw [hw]
    cases ha : addPart float p (.txt (w.take n)) t with
    | error e => simp [ha] at h
    | ok t1 =>
      simp only [ha] at h
      exact ⟨(List.getElem?_eq_some_iff.1 hr).1, t1, rfl, h⟩

theorem gather_dates {float : Conv} {tys : List Ty} {ps : List Name} {row : List Name} {n : ℕ} :
    ∀ {cs : List (ℕ × ℕ)} {t t' : TimeIn}, (∀ x ∈ cs, tys[x.1]? = some (.str n) ∧ ∃ p, ps[x.2]? = some p ∧ IsDate p) →
    Joins t.date → gather float tys ps (.row row) cs t = .ok t' →
    t' = { t with date := glueTo t.date (cells row n (cs.map Prod.fst)) } ∧ ∀ x ∈ cs, x.1 < row.length
  | [], t, t', _, _, h => by
    simp only [gather, Except.ok.injEq] at h
    subst h
    exact ⟨rfl, fun _ h => (List.not_mem_nil h).elim⟩
  | (c, i) :: cs, t, t', hx, hj, h => by
    obtain ⟨h1, p, h2, q, qs, rfl, hq⟩ := hx (c, i) (by simp)
    rw [← clock_letters] at hq
    obtain ⟨hc, t1, h3, h4⟩ := gather_step h1 h2 h
    obtain ⟨o', e1, e2, e3⟩ := join_glue hj ((row.getD c []).take n)
    simp only [addPart, hq, if_false, e1, Except.map, Except.ok.injEq] at h3
    subst h3
    obtain ⟨g1, g2⟩ := gather_dates (fun x hm => hx x (by simp [hm])) (show Joins _ from e2) h4
    refine ⟨?_, fun x hm => ?_⟩
    · rw [g1]
      simp only [List.map_cons, cells, e3]
    · rcases List.mem_cons.1 hm with rfl | hm
      · exact hc
      · exact g2 x hm

theorem gather_times {float : Conv} {tys : List Ty} {ps : List Name} {row : List Name} {n : ℕ} :
    ∀ {cs : List (ℕ × ℕ)} {t t' : TimeIn}, (∀ x ∈ cs, tys[x.1]? = some (.str n) ∧ ∃ p, ps[x.2]? = some p ∧ IsTime p) →
    Joins t.tod → gather float tys ps (.row row) cs t = .ok t' →
    t' = { t with tod := glueTo t.tod (cells row n (cs.map Prod.fst)) } ∧ ∀ x ∈ cs, x.1 < row.length
  | [], t, t', _, _, h => by
    simp only [gather, Except.ok.injEq] at h
    subst h
    exact ⟨rfl, fun _ h => (List.not_mem_nil h).elim⟩
  | (c, i) :: cs, t, t', hx, hj, h => by
    obtain ⟨h1, p, h2, q, qs, rfl, hq⟩ := hx (c, i) (by simp)
    rw [← clock_letters] at hq
    obtain ⟨hc, t1, h3, h4⟩ := gather_step h1 h2 h
    obtain ⟨o', e1, e2, e3⟩ := join_glue hj ((row.getD c []).take n)
    simp only [addPart, hq, if_true, e1, Except.map, Except.ok.injEq] at h3
    subst h3
    obtain ⟨g1, g2⟩ := gather_times (fun x hm => hx x (by simp [hm])) (show Joins _ from e2) h4
    refine ⟨?_, fun x hm => ?_⟩
    · rw [g1]
      simp only [List.map_cons, cells, e3]
    · rcases List.mem_cons.1 hm with rfl | hm
      · exact hc
      · exact g2 x hm

/-- The name of the column of the times: the last key -/
def Res.timeName (r : Res) : Name := r.keys.getLastD []

/-- The column of the times, from the rows -/
theorem load_time {float : Conv} {a : Args} {f : File} {r : Res} (h : load float a f = .ok r) (hg : f.good = true)
    (hh : moreHeader a f ≠ []) (hr : 2 ≤ f.rows.length) (hc : ∀ row ∈ f.rows, 2 ≤ row.length) (hn : r.keys.Nodup)
    {fmt : Name} (hf : a.fmt = some fmt) (hd : a.dateCols ≠ []) :
    ∃ tys, colTys a r.intCols (r.names a).length = .ok tys ∧
      List.Forall₂ (fun row v => ∃ ti x, gather float tys (parts a.fmt) (.row row) a.dateCols.zipIdx TimeIn.empty = .ok ti ∧
        toTime ti fmt = .ok x ∧ v = .time x) f.rows (r.out r.timeName) := by
  obtain ⟨ints, tys, dt, lines, h1, h2, h3, h4, h5, h6, h7, h8, -⟩ := load_ok h hg hh
  have hnm := names_eq h3 h8
  refine ⟨tys, by rw [hnm, h7]; exact h2, ?_⟩
  have h3' := h3
  rw [timeKey] at h3'
  simp only [hf, hd, if_false] at h3'
  cases hk : freeKey (keyList a (moreHeader a f)) dtKeys with
  | error e => simp [hk, Except.map] at h3'
  | ok k =>
    simp only [hk, Except.map, Except.ok.injEq] at h3'
    subst h3'
    have hkeys : r.keys = keyList a (moreHeader a f) ++ [k] := h8
    have ht : r.timeName = k := by
      rw [Res.timeName, hkeys]
      simp
    rw [hkeys] at hn
    obtain ⟨vs, b1, b2⟩ := addRows_time hn h5
    rw [lines_table h4 hr hc, forall_map] at b2
    rw [ht, b1, List.nil_append]
    exact b2

/-- The columns of the time are read as text when they are not declared as whole numbers. -/
theorem text_cols {a : Args} {ints : List ℕ} {n : ℕ} {tys : List Ty} (h : colTys a ints n = .ok tys) {fmt : Name}
    (hf : a.fmt = some fmt) {i c : ℕ} (hc : a.dateCols[i]? = some c) {p : Name} (hp : (parts a.fmt)[i]? = some p)
    (hs : find "SOD".toList (upper p) = none) (hi : c ∉ ints) : tys[c]? = some (.str (strLen a)) := by
  have hlt : c < n := by
    by_contra hge
    simp only [colTys, bind, Except.bind] at h
    cases h1 : setTy .int ints (List.replicate n .float) with
    | error e => simp [h1] at h
    | ok l1 =>
      simp only [h1] at h
      cases h2 : setTy (.str (strLen a)) a.strCols l1 with
      | error e => simp [h2] at h
      | ok l2 =>
        simp only [h2, hf] at h
        have hd : a.dateCols ≠ [] := by rintro h; simp [h] at hc
        simp only [hd, if_false] at h
        obtain ⟨g1, g2⟩ := dateTys_get h
        have := (g2 c).1 ⟨hi, i, p, by rw [List.mem_zipIdx_iff_getElem?]; exact hc, hf ▸ hp, hs⟩
        have hl : l2.length = n := by rw [(setTy_get h2).1, (setTy_get h1).1]; simp
        rw [List.getElem?_eq_none (by omega)] at this
        cases this
  rw [(colTys_get h).2 c hlt, wanted, if_pos]
  exact .inr ⟨by simp [hf], hi, i, p, hc, hp, hs⟩

/-- C101 as far as it holds: when each part of the format starts with a percent sign, the parts of the date come before those
of the time of day, and the columns are not declared as whole numbers, then each row gets the time that `convert_time`
reads from the texts of its columns, in the order of the columns, with blanks between. -/
theorem C101_time_partial {float : Conv} {a : Args} {f : File} {r : Res} (h : load float a f = .ok r) (hg : f.good = true)
    (hh : moreHeader a f ≠ []) (hr : 2 ≤ f.rows.length) (hc : ∀ row ∈ f.rows, 2 ≤ row.length) (hn : r.keys.Nodup)
    {fmt : Name} (hf : a.fmt = some fmt) {dates tods : List ℕ} (hd : dates ≠ []) (ht : tods ≠ [])
    (hcols : a.dateCols = dates ++ tods)
    (hdate : ∀ i, i < dates.length → ∃ p, (fmt.splitOn ' ')[i]? = some p ∧ IsDate p ∧ find "SOD".toList (upper p) = none)
    (htod : ∀ i, i < tods.length → ∃ p, (fmt.splitOn ' ')[dates.length + i]? = some p ∧ IsTime p ∧
      find "SOD".toList (upper p) = none)
    (hi : ∀ c ∈ a.dateCols, c ∉ r.intCols) :
    List.Forall₂ (fun row v => (∀ c ∈ a.dateCols, c < row.length) ∧ ∃ x, v = .time x ∧
      parseDay (glue (cells row (strLen a) a.dateCols)) fmt none = .ok x) f.rows (r.out r.timeName) := by
  have hparts : fmt.splitOn ' ' = parts a.fmt := by rw [hf]; rfl
  simp only [hparts] at hdate htod
  obtain ⟨tys, h1, h2⟩ := load_time h hg hh hr hc hn hf (by simp [hcols, hd])
  refine h2.imp ?_
  rintro row v ⟨ti, x, g1, g2, rfl⟩
  rw [hcols, List.zipIdx_append, gather_append] at g1
  have ty : ∀ (i c : ℕ) (p : Name), a.dateCols[i]? = some c → (parts a.fmt)[i]? = some p → find "SOD".toList (upper p) = none →
      tys[c]? = some (.str (strLen a)) := fun i c p e1 e2 e3 =>
    text_cols h1 hf e1 e2 e3 (hi c (List.mem_of_getElem? e1))
  cases hA : gather float tys (parts a.fmt) (.row row) dates.zipIdx TimeIn.empty with
  | error e => simp [hA, Except.bind] at g1
  | ok t1 =>
    simp only [hA, Except.bind] at g1
    obtain ⟨e1, e2⟩ := gather_dates (n := strLen a) (by
      rintro ⟨c, i⟩ hm
      rw [List.mem_zipIdx_iff_getElem?] at hm
      have hlt := (List.getElem?_eq_some_iff.1 hm).1
      obtain ⟨p, p1, p2, p3⟩ := hdate i hlt
      exact ⟨ty i c p (by rw [hcols, List.getElem?_append_left hlt]; exact hm) p1 p3, p, p1, p2⟩) (.inl rfl) hA
    obtain ⟨e3, e4⟩ := gather_times (n := strLen a) (t := t1) (by
      rintro ⟨c, i⟩ hm
      rw [List.mem_zipIdx_iff_le_and_getElem?_sub] at hm
      obtain ⟨hm1, hm2⟩ := hm
      rw [Nat.zero_add] at hm1 hm2
      have hlt := (List.getElem?_eq_some_iff.1 hm2).1
      obtain ⟨p, p1, p2, p3⟩ := htod (i - dates.length) hlt
      have hi' : dates.length + (i - dates.length) = i := by simp at hm1; omega
      rw [hi'] at p1
      exact ⟨ty i c p (by rw [hcols, List.getElem?_append_right (by simpa using hm1)]; exact hm2) p1 p3, p, p1, p2⟩)
      (by rw [e1]; exact .inl rfl) g1
    subst e1
    subst e3
    have z1 : (dates.zipIdx).map Prod.fst = dates := by simp
    have z2 : (tods.zipIdx (0 + dates.length)).map Prod.fst = tods := by simp
    rw [z1, z2] at g2
    refine ⟨fun c hm => ?_, x, rfl, ?_⟩
    · rw [hcols, List.mem_append] at hm
      rcases hm with hm | hm
      · obtain ⟨i, hi'⟩ := List.mem_iff_getElem?.1 hm
        exact e2 (c, i) (by rw [List.mem_zipIdx_iff_getElem?]; exact hi')
      · rw [← z2] at hm
        obtain ⟨y, hy, rfl⟩ := List.mem_map.1 hm
        exact e4 y hy
    · have ne1 : cells row (strLen a) dates ≠ [] := by simpa [cells] using hd
      have ne2 : cells row (strLen a) tods ≠ [] := by simpa [cells] using ht
      have e5 : ∀ l : List Name, l ≠ [] → glueTo none l = some (.txt (glue l)) := by
        intro l hl
        cases l with
        | nil => exact (hl rfl).elim
        | cons _ _ => rfl
      simp only [toTime, TimeIn.empty, e5 _ ne1, e5 _ ne2, asText, bind, Except.bind, convertTime, joinParse, Option.map,
        Option.bind] at g2
      rw [hcols]
      have : cells row (strLen a) (dates ++ tods) = cells row (strLen a) dates ++ cells row (strLen a) tods := by
        simp [cells]
      rw [this, glue_append ne1 ne2]
      exact g2

/-- C101 as far as it holds, for a format without a time of day. -/
theorem C101_date_only_partial {float : Conv} {a : Args} {f : File} {r : Res} (h : load float a f = .ok r)
    (hg : f.good = true) (hh : moreHeader a f ≠ []) (hr : 2 ≤ f.rows.length) (hc : ∀ row ∈ f.rows, 2 ≤ row.length)
    (hn : r.keys.Nodup) {fmt : Name} (hf : a.fmt = some fmt) (hd : a.dateCols ≠ [])
    (hdate : ∀ i, i < a.dateCols.length → ∃ p, (fmt.splitOn ' ')[i]? = some p ∧ IsDate p ∧ find "SOD".toList (upper p) = none)
    (hi : ∀ c ∈ a.dateCols, c ∉ r.intCols) :
    List.Forall₂ (fun row v => (∀ c ∈ a.dateCols, c < row.length) ∧ ∃ x, v = .time x ∧
      parseDay (glue (cells row (strLen a) a.dateCols)) (bareFmt fmt) none = .ok x) f.rows (r.out r.timeName) := by
  have hparts : fmt.splitOn ' ' = parts a.fmt := by rw [hf]; rfl
  simp only [hparts] at hdate
  obtain ⟨tys, h1, h2⟩ := load_time h hg hh hr hc hn hf hd
  refine h2.imp ?_
  rintro row v ⟨ti, x, g1, g2, rfl⟩
  obtain ⟨e1, e2⟩ := gather_dates (n := strLen a) (by
    rintro ⟨c, i⟩ hm
    rw [List.mem_zipIdx_iff_getElem?] at hm
    obtain ⟨p, p1, p2, p3⟩ := hdate i (List.getElem?_eq_some_iff.1 hm).1
    exact ⟨text_cols h1 hf hm p1 p3 (hi c (List.mem_of_getElem? hm)), p, p1, p2⟩) (.inl rfl) g1
  subst e1
  have z1 : (a.dateCols.zipIdx).map Prod.fst = a.dateCols := by simp
  rw [z1] at g2
  refine ⟨fun c hm => ?_, x, rfl, ?_⟩
  · obtain ⟨i, hi'⟩ := List.mem_iff_getElem?.1 hm
    exact e2 (c, i) (by rw [List.mem_zipIdx_iff_getElem?]; exact hi')
  · have ne1 : cells row (strLen a) a.dateCols ≠ [] := by simpa [cells] using hd
    have e5 : ∀ l : List Name, l ≠ [] → glueTo none l = some (.txt (glue l)) := by
      intro l hl
      cases l with
      | nil => exact (hl rfl).elim
      | cons _ _ => rfl
    simp only [toTime, TimeIn.empty, e5 _ ne1, asText, bind, Except.bind, convertTime, joinParse, Option.map,
      Option.bind, Option.getD] at g2
    exact g2

/-- What is read when the parts of the time of day come first: the date is put before the time of day all the same. -/
theorem time_first {float : Conv} {a : Args} {f : File} {r : Res} (h : load float a f = .ok r) (hg : f.good = true)
    (hh : moreHeader a f ≠ []) (hr : 2 ≤ f.rows.length) (hc : ∀ row ∈ f.rows, 2 ≤ row.length) (hn : r.keys.Nodup)
    {fmt : Name} (hf : a.fmt = some fmt) {tod date : ℕ} (hcols : a.dateCols = [tod, date]) {p q : Name}
    (hp : parts a.fmt = [p, q]) (hp1 : IsTime p) (hq1 : IsDate q) (hp2 : find "SOD".toList (upper p) = none)
    (hq2 : find "SOD".toList (upper q) = none) (hi : ∀ c ∈ a.dateCols, c ∉ r.intCols) :
    List.Forall₂ (fun row v => ∃ x, v = .time x ∧
      parseDay (glue (cells row (strLen a) [date, tod])) fmt none = .ok x) f.rows (r.out r.timeName) := by
  obtain ⟨tys, h1, h2⟩ := load_time h hg hh hr hc hn hf (by simp [hcols])
  refine h2.imp ?_
  rintro row v ⟨ti, x, g1, g2, rfl⟩
  refine ⟨x, rfl, ?_⟩
  have t1 := text_cols h1 hf (i := 0) (c := tod) (by simp [hcols]) (by rw [hp]; rfl) hp2 (hi _ (by simp [hcols]))
  have t2 := text_cols h1 hf (i := 1) (c := date) (by simp [hcols]) (by rw [hp]; rfl) hq2 (hi _ (by simp [hcols]))
  rw [hcols] at g1
  have hz : [tod, date].zipIdx = [(tod, 0), (date, 1)] := rfl
  rw [hz, hp] at g1
  obtain ⟨-, u1, a1, b1⟩ := gather_step t1 (show [p, q][0]? = some p from rfl) g1
  obtain ⟨-, u2, a2, b2⟩ := gather_step t2 (show [p, q][1]? = some q from rfl) b1
  obtain ⟨c1, cs1, rfl, m1⟩ := hp1
  obtain ⟨c2, cs2, rfl, m2⟩ := hq1
  rw [← clock_letters] at m1 m2
  simp only [addPart, m1, if_true, TimeIn.empty, join, Except.map, Except.ok.injEq] at a1
  subst a1
  simp only [addPart, m2, if_false, join, Except.map, Except.ok.injEq] at a2
  subst a2
  simp only [gather, Except.ok.injEq] at b2
  subst b2
  simp only [toTime, asText, bind, Except.bind, convertTime, joinParse, Option.map, Option.bind] at g2
  have hgl : glue (cells row (strLen a) [date, tod])
      = (row.getD date []).take (strLen a) ++ ' ' :: (row.getD tod []).take (strLen a) := by
    simp [glue, cells, List.intercalate]
  rw [hgl]
  exact g2

theorem forall_mem {α β : Type} {R : α → β → Prop} {l : List α} {m : List β} (h : List.Forall₂ R l m) {x : α} (hx : x ∈ l) :
    ∃ y ∈ m, R x y := by
  induction h with
  | nil => exact (List.not_mem_nil hx).elim
  | cons h1 _ ih =>
    rcases List.mem_cons.1 hx with rfl | hx
    · exact ⟨_, by simp, h1⟩
    · obtain ⟨y, hy, h⟩ := ih hx
      exact ⟨y, by simp [hy], h⟩

/-- C101 is false when the time of day comes before the date: no file with a row for noon on 5 May 2000, written as the format
says, is loaded. -/
theorem C101_order_refuted {float : Conv} {a : Args} {f : File} (hg : f.good = true)
    (hh : moreHeader a f ≠ []) (hr : 2 ≤ f.rows.length) (hc : ∀ row ∈ f.rows, 2 ≤ row.length)
    (hf : a.fmt = some "%H:%M:%S %Y-%m-%d".toList) {tod date : ℕ} (hcols : a.dateCols = [tod, date])
    (hi : ∀ c ∈ a.dateCols, c ∉ a.intCols) {row : List Name} (hm : row ∈ f.rows) (h1 : row[tod]? = some "12:00:00".toList)
    (h2 : row[date]? = some "2000-05-05".toList) (r : Res) (hn : r.keys.Nodup) : load float a f ≠ .ok r := by
  intro h
  have hint : r.intCols = a.intCols := by
    obtain ⟨ints, tys, dt, lines, g1, -, -, -, -, -, g7, -⟩ := load_ok h hg hh
    rw [g7]
    have e1 : wordCol "%H:%M:%S %Y-%m-%d".toList "YEAR".toList = .ok [] := by decide
    have e2 : wordCol "%H:%M:%S %Y-%m-%d".toList "SOY".toList = .ok [] := by decide
    simp only [moreInts, hf, e1, e2, bind, Except.bind, pure, Except.pure, List.append_nil, Except.ok.injEq] at g1
    exact g1.symm
  have hp : parts a.fmt = ["%H:%M:%S".toList, "%Y-%m-%d".toList] := by rw [hf]; decide
  have h3 := time_first h hg hh hr hc hn hf hcols hp ⟨'H', _, rfl, by decide⟩ ⟨'Y', _, rfl, by decide⟩ (by decide) (by decide)
    (by rw [hint]; exact hi)
  obtain ⟨v, -, x, -, hx⟩ := forall_mem h3 hm
  have hlen : 19 ≤ strLen a := by
    simp only [strLen, hf]
    exact le_trans (by decide) (le_max_right _ _)
  have hgl : glue (cells row (strLen a) [date, tod]) = "2000-05-05 12:00:00".toList := by
    simp only [cells, List.map_cons, List.map_nil, List.getD_eq_getElem?_getD, h1, h2, Option.getD]
    rw [List.take_of_length_le (le_trans (by decide) hlen), List.take_of_length_le (le_trans (by decide) hlen)]
    decide
  rw [hgl] at hx
  have he : strptime "2000-05-05 12:00:00".toList "%H:%M:%S %Y-%m-%d".toList = .error .mismatch := by decide
  simp only [parseDay, he] at hx
  cases hx

/-- C101, the default format: dates and times of day written in two columns are read exactly, in every row. -/
theorem C101_default_format {float : Conv} {a : Args} {f : File} {r : Res} (h : load float a f = .ok r) (hg : f.good = true)
    (hh : moreHeader a f ≠ []) (hr : 2 ≤ f.rows.length) (hc : ∀ row ∈ f.rows, 2 ≤ row.length) (hn : r.keys.Nodup)
    (hf : a.fmt = some "%Y-%m-%d %H:%M:%S".toList) {date tod : ℕ} (hcols : a.dateCols = [date, tod])
    (hi : ∀ c ∈ a.dateCols, c ∉ a.intCols) {i y m d hr' mi s : ℕ} {row : List Name} (hrow : f.rows[i]? = some row)
    (hv : Valid y m d) (h1 : hr' < 24) (h2 : mi < 60) (h3 : s < 60)
    (hd : row[date]? = some (dateText y m d)) (ht : row[tod]? = some (pad2 hr' ++ ':' :: (pad2 mi ++ ':' :: pad2 s))) :
    (r.out r.timeName)[i]?.map (fun | .time x => x | _ => 0)
      = some (midnight y m d + ((hr' * 60 + mi) * 60 + s) * 1000000) := by
  have hint : r.intCols = a.intCols := by
    obtain ⟨ints, tys, dt, lines, g1, -, -, -, -, -, g7, -⟩ := load_ok h hg hh
    rw [g7]
    have e1 : wordCol "%Y-%m-%d %H:%M:%S".toList "YEAR".toList = .ok [] := by decide
    have e2 : wordCol "%Y-%m-%d %H:%M:%S".toList "SOY".toList = .ok [] := by decide
    simp only [moreInts, hf, e1, e2, bind, Except.bind, pure, Except.pure, List.append_nil, Except.ok.injEq] at g1
    exact g1.symm
  have hp : "%Y-%m-%d %H:%M:%S".toList.splitOn ' ' = ["%Y-%m-%d".toList, "%H:%M:%S".toList] := by decide
  have h4 := C101_time_partial h hg hh hr hc hn hf (dates := [date]) (tods := [tod]) (by simp) (by simp) (by simp [hcols])
    (by
      intro i hi'
      have : i = 0 := by simp at hi'; omega
      subst this
      exact ⟨_, by rw [hp]; rfl, ⟨'Y', _, rfl, by decide⟩, by decide⟩)
    (by
      intro i hi'
      have : i = 0 := by simp at hi'; omega
      subst this
      exact ⟨_, by rw [hp]; rfl, ⟨'H', _, rfl, by decide⟩, by decide⟩)
    (by rw [hint]; exact hi)
  rw [List.forall₂_iff_get] at h4
  obtain ⟨e1, e2⟩ := h4
  obtain ⟨hlt, hget⟩ := List.getElem?_eq_some_iff.1 hrow
  obtain ⟨-, x, hx1, hx2⟩ := e2 i hlt (by omega)
  rw [List.getElem?_eq_getElem (by omega)]
  have hlen : 19 ≤ strLen a := by
    simp only [strLen, hf]
    exact le_trans (by decide) (le_max_right _ _)
  have hdl : (dateText y m d).length ≤ 19 := by
    simp [dateText, pad2, pad4]
  have htl : (pad2 hr' ++ ':' :: (pad2 mi ++ ':' :: pad2 s)).length ≤ 19 := by simp [pad2]
  have hgl : glue (cells row (strLen a) a.dateCols) = dateText y m d ++ ' ' :: (pad2 hr' ++ ':' :: (pad2 mi ++ ':' :: pad2 s)) := by
    simp only [hcols, cells, List.map_cons, List.map_nil, List.getD_eq_getElem?_getD, hd, ht, Option.getD]
    rw [List.take_of_length_le (le_trans hdl hlen), List.take_of_length_le (le_trans htl hlen)]
    simp [glue, List.intercalate]
  have h5 := C84_default_format hv h1 h2 h3 none
  simp only [convertTime, joinParse] at h5
  simp only [List.get_eq_getElem, hget, hgl, h5, Except.ok.injEq] at hx1 hx2
  simp [hx1, hx2]

/-! ### Whole numbers -/

/-- C102 as far as it holds: with a format that has neither a year nor seconds of the year, the columns of whole numbers are
those that were asked for. -/
theorem C102_as_asked_partial {float : Conv} {a : Args} {f : File} {r : Res} (h : load float a f = .ok r)
    (hf : ∀ fmt, a.fmt = some fmt → find "YEAR".toList (upper fmt) = none ∧ find "SOY".toList (upper fmt) = none) :
    r.intCols = a.intCols := by
  have hm : moreInts a = .ok a.intCols := by
    cases hfm : a.fmt with
    | none => simp [moreInts, hfm]
    | some fmt =>
      obtain ⟨e1, e2⟩ := hf fmt hfm
      simp only [moreInts, hfm, wordCol, e1, e2, bind, Except.bind, pure, Except.pure, List.append_nil]
  by_cases hg : f.good = true
  · by_cases hh : moreHeader a f = []
    · simp only [load, hg, Bool.true_eq_false, if_false, bind, Except.bind, pure, Except.pure, hm, hh, if_true,
        Except.ok.injEq] at h
      rw [← h]
    · obtain ⟨ints, tys, dt, lines, g1, -, -, -, -, -, g7, -⟩ := load_ok h hg hh
      rw [hm, Except.ok.injEq] at g1
      rw [g7, g1]
  · simp only [Bool.not_eq_true] at hg
    simp only [load, hg, if_true, Except.ok.injEq] at h
    rw [← h]

/-- C102 as far as it holds: year and seconds of the year in the first two columns become whole numbers, whatever the
letters of the format. -/
theorem C102_first_columns_partial {float : Conv} {a : Args} {f : File} {r : Res} (h : load float a f = .ok r)
    (hg : f.good = true) (hf : a.fmt = some "YEAR SOY".toList ∨ a.fmt = some "Year soy".toList) :
    r.intCols = a.intCols ++ [0, 1] := by
  have hm : moreInts a = .ok (a.intCols ++ [0, 1]) := by
    rcases hf with hf | hf
    · have e1 : wordCol "YEAR SOY".toList "YEAR".toList = .ok [0] := by decide
      have e2 : wordCol "YEAR SOY".toList "SOY".toList = .ok [1] := by decide
      simp only [moreInts, hf, e1, e2, bind, Except.bind, pure, Except.pure]
      simp
    · have e1 : wordCol "Year soy".toList "YEAR".toList = .ok [0] := by decide
      have e2 : wordCol "Year soy".toList "SOY".toList = .ok [1] := by decide
      simp only [moreInts, hf, e1, e2, bind, Except.bind, pure, Except.pure]
      simp
  by_cases hh : moreHeader a f = []
  · simp only [load, hg, Bool.true_eq_false, if_false, bind, Except.bind, pure, Except.pure, hm, hh, if_true,
      Except.ok.injEq] at h
    rw [← h]
  · obtain ⟨ints, tys, dt, lines, g1, -, -, -, -, -, g7, -⟩ := load_ok h hg hh
    rw [hm, Except.ok.injEq] at g1
    rw [g7, ← g1]

/-- C102 is false: with the year and the seconds of the year in other columns, the first columns of the file become whole
numbers though nobody asked for it.  A file with a number that is not whole in the first column is not loaded. -/
theorem C102_position_refuted {float : Conv} {a : Args} {f : File} (hg : f.good = true) (hh : a.hlines ≠ 0 ∨ a.header ≠ [])
    (hr : 2 ≤ f.rows.length) (hc : ∀ row ∈ f.rows, 2 ≤ row.length) (hf : a.fmt = some "YEAR SOY".toList)
    (hd : a.dateCols = [1, 2]) (hs : a.strCols = []) {row : List Name} (hm : row ∈ f.rows) {w : Name}
    (hw : row[0]? = some w) (he : readInt w = .error .valueError) (r : Res) (hn : r.keys.Nodup) (hk : r.names a ≠ []) :
    load float a f ≠ .ok r := by
  intro h
  have hi := C102_first_columns_partial h hg (.inl hf)
  obtain ⟨k, ks, hks⟩ := List.exists_cons_of_ne_nil hk
  have hcol := C100_columns_partial h hg hh hr hc hn (j := 0) (k := k) (by rw [hks]; rfl)
  rw [Column, forall_map] at hcol
  obtain ⟨v, -, w', h1, h2⟩ := forall_mem hcol hm
  rw [hw, Option.some.injEq] at h1
  subst h1
  have hty : wanted a r.intCols 0 = .int := by
    rw [wanted, if_neg, if_pos (by simp [hi])]
    simp [hs, hi]
  rw [hty] at h2
  simp [cast, he, Except.map] at h2

/-! ### The lists of the caller -/

/-- C103: the header that is returned is the one that was given, with the lines of the file behind it. -/
theorem C103_header {float : Conv} {a : Args} {f : File} {r : Res} (h : load float a f = .ok r) (hg : f.good = true) :
    r.header.length = a.header.length + a.hlines ∧ (∀ i, i < a.header.length → r.header[i]? = a.header[i]?) ∧
      ∀ i, i < a.hlines → r.header[a.header.length + i]? = some (strip (f.lines.getD i [])) := by
  have hr : r.header = moreHeader a f := by
    by_cases hh : moreHeader a f = []
    · simp only [load, hg, Bool.true_eq_false, if_false, bind, Except.bind, pure, Except.pure, hh, if_true] at h
      cases hm : moreInts a with
      | error e => simp [hm] at h
      | ok ints =>
        simp only [hm, Except.ok.injEq] at h
        rw [← h, hh]
    · obtain ⟨ints, tys, dt, lines, -, -, -, -, -, g6, -⟩ := load_ok h hg hh
      exact g6
  rw [hr, moreHeader]
  refine ⟨by simp, fun i hi => List.getElem?_append_left hi, fun i hi => ?_⟩
  rw [List.getElem?_append_right (by omega)]
  simp [hi]

/-- C103 is false for a list that is used again: the first call appends to the caller's list, so that a second call takes
the names from the header of the first file. -/
theorem C103_second_call_refuted {float : Conv} {a : Args} {f g : File} {r s : Res} (h1 : load float a f = .ok r)
    (h2 : load float { a with header := r.header } g = .ok s) (hf : f.good = true) (hg : g.good = true)
    (ha : a.header = []) (hl : a.hlines ≠ 0) : s.names { a with header := r.header } = r.names a := by
  have hh : moreHeader a f ≠ [] := by simp [moreHeader, hl]
  obtain ⟨_, _, dt, _, -, -, b3, -, -, b6, -, b8, -⟩ := load_ok h1 hf hh
  have hrne : r.header ≠ [] := by rw [b6]; exact hh
  have hh2 : moreHeader { a with header := r.header } g ≠ [] := by simp [moreHeader, hrne]
  obtain ⟨_, _, dt', _, -, -, c3, -, -, -, -, c8, -⟩ := load_ok h2 hg hh2
  rw [names_eq b3 b8, names_eq c3 c8]
  simp only [keyList, ha, hrne, if_true, if_false]
  rw [b6]

/-- C103 holds when the list is empty: the names are those of the last header line of the file. -/
theorem C103_fresh_partial {float : Conv} {a : Args} {f : File} {r : Res} (h : load float a f = .ok r) (hf : f.good = true)
    (ha : a.header = []) (hl : a.hlines ≠ 0) (hc : a.comments = none) (hs : a.hsplit = none) :
    r.names a = words (strip ((strip (f.lines.getD (a.hlines - 1) [])).filter (· ≠ '#'))) := by
  have hh : moreHeader a f ≠ [] := by simp [moreHeader, hl]
  obtain ⟨_, _, dt, _, -, -, b3, -, -, b6, -, b8, -⟩ := load_ok h hf hh
  rw [names_eq b3 b8]
  obtain ⟨n, hn⟩ := Nat.exists_eq_succ_of_ne_zero hl
  have hlast : (moreHeader a f).getLastD [] = strip (f.lines.getD (a.hlines - 1) []) := by
    rw [moreHeader, ha, hn, List.range_succ]
    simp
  simp only [keyList, ha, if_true, hc, hs, hlast]

/-! ### Names -/

theorem words_ws (w : Name) (h : w.all isWs = true) (l : Name) : wordsAux (w ++ l) [] = wordsAux l [] := by
  induction w with
  | nil => rfl
  | cons c cs ih =>
    rw [List.all_cons, Bool.and_eq_true] at h
    rw [List.cons_append, wordsAux, if_pos h.1, if_pos rfl, ih h.2]

theorem words_end (w : Name) (h : w.all isWs = true) : ∀ (l a : Name), wordsAux (l ++ w) a = wordsAux l a
  | [], a => by
    cases w with
    | nil => rfl
    | cons c cs =>
      rw [List.all_cons, Bool.and_eq_true] at h
      have hz : wordsAux cs [] = [] := by
        have := words_ws cs h.2 []
        rw [List.append_nil] at this
        rw [this]
        rfl
      simp [wordsAux, h.1, hz]
  | c :: cs, a => by
    rw [List.cons_append, wordsAux, wordsAux, words_end w h cs, words_end w h cs]

theorem all_takeWhile (p : Char → Bool) (l : Name) : ∀ x ∈ l.takeWhile p, p x = true := by
  induction l with
  | nil => simp
  | cons c cs ih =>
    intro x hx
    rw [List.takeWhile_cons] at hx
    split at hx
    · rename_i hc
      rcases List.mem_cons.1 hx with rfl | hx
      · exact hc
      · exact ih x hx
    · simp at hx

theorem strip_parts (l : Name) : ∃ u v : Name, u.all isWs = true ∧ v.all isWs = true ∧ l = u ++ strip l ++ v := by
  refine ⟨l.takeWhile isWs, ((l.dropWhile isWs).reverse.takeWhile isWs).reverse, ?_, ?_, ?_⟩
  · exact List.all_eq_true.2 fun x hx => all_takeWhile _ _ x hx
  · refine List.all_eq_true.2 fun x hx => ?_
    rw [List.mem_reverse] at hx
    exact all_takeWhile _ _ x hx
  · rw [strip, List.append_assoc, ← List.reverse_append, List.takeWhile_append_dropWhile, List.reverse_reverse,
      List.takeWhile_append_dropWhile]

theorem words_strip (l : Name) : words (strip l) = words l := by
  obtain ⟨u, v, hu, hv, he⟩ := strip_parts l
  have : words l = words (u ++ strip l ++ v) := by rw [← he]
  rw [this, words, words, words_end v hv, words_ws u hu]

theorem words_filter (p : Char → Bool) (l : Name) : words ((strip l).filter p) = words (l.filter p) := by
  obtain ⟨u, v, hu, hv, he⟩ := strip_parts l
  have : words (l.filter p) = words ((u ++ strip l ++ v).filter p) := by rw [← he]
  rw [this, List.filter_append, List.filter_append, words, words, words_end _ ?_, words_ws _ ?_]
  · exact List.all_eq_true.2 fun x hx => List.all_eq_true.1 hu x (List.mem_filter.1 hx).1
  · exact List.all_eq_true.2 fun x hx => List.all_eq_true.1 hv x (List.mem_filter.1 hx).1

theorem words_one (w : Name) (hw : ∀ c ∈ w, isWs c = false) (l : Name) : ∀ a : Name,
    wordsAux (w ++ l) a = wordsAux l (w.reverse ++ a) := by
  induction w with
  | nil => intro a; rfl
  | cons c cs ih =>
    intro a
    rw [List.cons_append, wordsAux, hw c (by simp), if_neg (by simp), ih fun x hx => hw x (by simp [hx])]
    simp

theorem words_glue : ∀ (l : List Name), (∀ w ∈ l, w ≠ [] ∧ ∀ c ∈ w, isWs c = false) → words (glue l) = l
  | [], _ => rfl
  | [w], h => by
    obtain ⟨h1, h2⟩ := h w (by simp)
    have := words_one w h2 [] []
    rw [List.append_nil, List.append_nil] at this
    have hg : glue [w] = w := by simp [glue, List.intercalate]
    rw [words, hg, this, wordsAux, if_neg (by simpa using h1), List.reverse_reverse]
  | w :: x :: xs, h => by
    obtain ⟨h1, h2⟩ := h w (by simp)
    rw [words, glue_cons w (by simp), words_one w h2, List.append_nil, wordsAux, if_pos (by decide),
      if_neg (by simpa using h1), List.reverse_reverse]
    have := words_glue (x :: xs) fun y hy => h y (by simp [hy])
    rw [words] at this
    rw [this]

/-- The words of a line are found whatever white space stands between them, before the first and behind the last; the line
of C58 is such a line. -/
theorem C58_line_words (pre : Name) (hp : pre.all isWs = true) (l : List (Name × Name))
    (h : ∀ p ∈ l, p.1 ≠ [] ∧ (∀ c ∈ p.1, isWs c = false) ∧ p.2 ≠ [] ∧ p.2.all isWs = true) :
    words (pre ++ l.flatMap fun p => p.1 ++ p.2) = l.map Prod.fst := by
  rw [words, words_ws pre hp]
  clear hp pre
  induction l with
  | nil => rfl
  | cons p l ih =>
    obtain ⟨h1, h2, h3, h4⟩ := h p (by simp)
    rw [List.flatMap_cons, List.append_assoc, words_one p.1 h2, List.append_nil]
    obtain ⟨c, cs, hc⟩ := List.exists_cons_of_ne_nil h3
    rw [hc] at h4 ⊢
    rw [List.all_cons, Bool.and_eq_true] at h4
    rw [List.cons_append, wordsAux, if_pos h4.1, if_neg (by simpa using h1), List.reverse_reverse, words_ws cs h4.2,
      ih fun q hq => h q (by simp [hq])]
    rfl

example : words "  2000\t5  5\n".toList = ["2000".toList, "5".toList, "5".toList] :=
  C58_line_words "  ".toList (by decide) [("2000".toList, "\t".toList), ("5".toList, "  ".toList), ("5".toList, "\n".toList)]
    (by decide)

/-- C104 as far as it holds: without the option for comments, the names are the words of the last header line, whether or not
the line is marked with number signs. -/
theorem C104_names_partial {float : Conv} {a : Args} {f : File} {r : Res} (h : load float a f = .ok r) (hf : f.good = true)
    (ha : a.header = []) (hl : a.hlines ≠ 0) (hc : a.comments = none) (hs : a.hsplit = none) {names : List Name}
    (hn : ∀ w ∈ names, w ≠ [] ∧ (∀ c ∈ w, isWs c = false) ∧ '#' ∉ w) {pre : Name} (hp : ∀ c ∈ pre, c = '#' ∨ c = ' ')
    (hline : f.lines[a.hlines - 1]? = some (pre ++ glue names ++ ['\n'])) : r.names a = names := by
  have hg : ∀ l : List Name, (∀ w ∈ l, '#' ∉ w) → (glue l).filter (· ≠ '#') = glue l := by
    intro l hl
    refine List.filter_eq_self.2 fun c hc => ?_
    rw [decide_eq_true_eq]
    rintro rfl
    induction l with
    | nil => simp [glue, List.intercalate] at hc
    | cons w l ih =>
      by_cases hne : l = []
      · subst hne
        have hg : glue [w] = w := by simp [glue, List.intercalate]
        rw [hg] at hc
        exact hl w (by simp) hc
      · rw [glue_cons w hne, List.mem_append, List.mem_cons] at hc
        rcases hc with hc | hc | hc
        · exact hl w (by simp) hc
        · exact absurd hc (by decide)
        · exact ih (fun w hw => hl w (by simp [hw])) hc
  rw [C103_fresh_partial h hf ha hl hc hs, words_strip, words_filter, List.getD_eq_getElem?_getD, hline, Option.getD,
    List.filter_append, List.filter_append, hg names fun w hw => (hn w hw).2.2, words, words_end _ (by decide), words_ws]
  · exact words_glue names fun w hw => ⟨(hn w hw).1, (hn w hw).2.1⟩
  · refine List.all_eq_true.2 fun c hc => ?_
    obtain ⟨h1, h2⟩ := List.mem_filter.1 hc
    rcases hp c h1 with rfl | rfl
    · simp at h2
    · decide

/-- C104 is false with the option for comments: a header line that starts with the mark of comments has no names, and
nothing of the file is loaded. -/
theorem C104_comment_refuted {float : Conv} {a : Args} {f : File} {r : Res} (h : load float a f = .ok r) (hf : f.good = true)
    (ha : a.header = []) (hl : a.hlines ≠ 0) (hc : a.comments = some ['#']) (hs : a.hsplit = none) {line : Name}
    (hline : f.lines[a.hlines - 1]? = some ('#' :: line)) : r.names a = [] := by
  have hh : moreHeader a f ≠ [] := by simp [moreHeader, hl]
  obtain ⟨_, _, dt, _, -, -, b3, -, -, b6, -, b8, -⟩ := load_ok h hf hh
  rw [names_eq b3 b8]
  obtain ⟨n, hn⟩ := Nat.exists_eq_succ_of_ne_zero hl
  have hlast : (moreHeader a f).getLastD [] = strip ('#' :: line) := by
    rw [moreHeader, ha, hn, List.range_succ]
    rw [hn] at hline
    simp only [Nat.succ_eq_add_one, Nat.add_sub_cancel] at hline
    simp [hline]
  have hst : ∃ s, strip ('#' :: line) = '#' :: s := by
    obtain ⟨u, v, hu, hv, he⟩ := strip_parts ('#' :: line)
    cases u with
    | cons c cs =>
      rw [List.cons_append, List.cons_append, List.cons.injEq] at he
      rw [List.all_cons, ← he.1] at hu
      simp [isWs] at hu
    | nil =>
      rw [List.nil_append] at he
      cases hz : strip ('#' :: line) with
      | nil =>
        rw [hz, List.nil_append] at he
        rw [← he, List.all_cons] at hv
        simp [isWs] at hv
      | cons c cs =>
        rw [hz, List.cons_append, List.cons.injEq] at he
        exact ⟨cs, by rw [← he.1]⟩
  obtain ⟨s, hst⟩ := hst
  simp only [keyList, ha, if_true, hc, hs, hlast, hst, before]
  rfl

/-- C104: the column of the times gets the first of the four names that is not the name of a column of the file. -/
theorem C104_time_name {float : Conv} {a : Args} {f : File} {r : Res} (h : load float a f = .ok r) (hf : f.good = true)
    (hh : moreHeader a f ≠ []) (ht : Timed a) : r.keys = r.names a ++ [r.timeName] ∧
      ["datetime".toList, "DATETIME".toList, "DT".toList, "dt".toList].find? (· ∉ r.names a) = some r.timeName := by
  obtain ⟨_, _, dt, _, -, -, b3, -, -, b6, -, b8, -⟩ := load_ok h hf hh
  have hnm := names_eq b3 b8
  rw [hnm]
  rw [timeKey] at b3
  obtain ⟨fmt, hfm⟩ := Option.ne_none_iff_exists'.1 ht.1
  simp only [hfm, ht.2, if_false] at b3
  cases hk : freeKey (keyList a (moreHeader a f)) dtKeys with
  | error e => simp [hk, Except.map] at b3
  | ok k =>
    simp only [hk, Except.map, Except.ok.injEq] at b3
    subst b3
    have hkeys : r.keys = keyList a (moreHeader a f) ++ [k] := b8
    have htn : r.timeName = k := by
      rw [Res.timeName, hkeys]
      simp
    rw [htn]
    refine ⟨hkeys, ?_⟩
    have gen : ∀ l : List Name, freeKey (keyList a (moreHeader a f)) l = .ok k →
        l.find? (fun x => decide (x ∉ keyList a (moreHeader a f))) = some k := by
      intro l
      induction l with
      | nil => simp [freeKey]
      | cons x xs ih =>
        intro hx
        rw [freeKey] at hx
        split at hx
        · rename_i hm
          rw [List.find?_cons_of_neg (by simpa using hm)]
          exact ih hx
        · rename_i hm
          simp only [Except.ok.injEq] at hx
          rw [List.find?_cons_of_pos (by simpa using hm), hx]
    exact gen _ hk

/-- C104 is false for a file whose columns have all four names: with a format for times it is not loaded. -/
theorem C104_all_taken_refuted {float : Conv} {a : Args} {f : File} (hf : f.good = true)
    (hh : moreHeader a f ≠ []) (ht : Timed a)
    (hall : ∀ k ∈ ["datetime".toList, "DATETIME".toList, "DT".toList, "dt".toList], k ∈ keyList a (moreHeader a f)) (r : Res) :
    load float a f ≠ .ok r := by
  intro h
  obtain ⟨_, _, dt, _, -, -, b3, -, -, b6, -, b8, -⟩ := load_ok h hf hh
  obtain ⟨-, h2⟩ := C104_time_name h hf hh ht
  rw [names_eq b3 b8] at h2
  have := List.find?_some h2
  simp only [decide_eq_true_eq] at this
  exact this (hall _ (List.mem_of_find?_eq_some h2))

/-! ### Files without rows -/

/-- C105: a file with a header but no rows is not loaded: the look at the first entry of each list fails. -/
theorem C105_no_rows_refuted {float : Conv} {a : Args} {f : File} (hg : f.good = true) (hh : moreHeader a f ≠ [])
    (hr : f.rows = []) (hk : keyList a (moreHeader a f) ≠ []) (r : Res) : load float a f ≠ .ok r := by
  intro h
  obtain ⟨ints, tys, dt, lines, h1, h2, h3, h4, h5, h6, h7, h8, h9⟩ := load_ok h hg hh
  rw [hr] at h4
  simp only [toLines, Except.ok.injEq] at h4
  subst h4
  simp only [addRows, Except.ok.injEq] at h5
  obtain ⟨k, ks, hks⟩ := List.exists_cons_of_ne_nil hk
  exact h9 k (by rw [h8, hks]; simp) (by rw [← h5])

/-! ### Files that are loaded -/

theorem addRow_succeeds {float : Conv} {tys : List Ty} {l : Line} : ∀ {ks : List (Name × ℕ)} (t : Table),
    (∀ x ∈ ks, ∃ w ty v, fetch l x.2 = .ok w ∧ tys[x.2]? = some ty ∧ cast float ty w = .ok v) →
    ∃ t', addRow float tys l ks t = .ok t'
  | [], t, _ => ⟨t, rfl⟩
  | (k, num) :: ks, t, h => by
    obtain ⟨w, ty, v, h1, h2, h3⟩ := h (k, num) (by simp)
    simp only at h1 h2 h3
    simp only [addRow, bind, Except.bind, h1, h2, h3]
    exact addRow_succeeds _ fun x hx => h x (by simp [hx])

theorem addRows_succeeds {float : Conv} {tys : List Ty} {ps keys : List Name} {dc : List ℕ} {dt : Option (Name × Name)} :
    ∀ {ls : List Line} (t : Table),
    (∀ l ∈ ls, ∀ x ∈ keys.zipIdx, ∃ w ty v, fetch l x.2 = .ok w ∧ tys[x.2]? = some ty ∧ cast float ty w = .ok v) →
    (∀ l ∈ ls, ∀ d ∈ dt, ∃ ti x, gather float tys ps l dc.zipIdx TimeIn.empty = .ok ti ∧ toTime ti d.2 = .ok x) →
    ∃ t', addRows float tys ps keys dc dt ls t = .ok t'
  | [], t, _, _ => ⟨t, rfl⟩
  | l :: ls, t, h, ht => by
    obtain ⟨t1, h1⟩ := addRow_succeeds t (h l (by simp))
    simp only [addRows, bind, Except.bind, h1]
    cases dt with
    | none => exact addRows_succeeds _ (fun l hl => h l (by simp [hl])) fun l hl => ht l (by simp [hl])
    | some d =>
      obtain ⟨ti, x, h2, h3⟩ := ht l (by simp) d rfl
      simp only [h2, h3]
      exact addRows_succeeds _ (fun l hl => h l (by simp [hl])) fun l hl => ht l (by simp [hl])

/-- A file is loaded when each step works. -/
theorem load_succeeds {float : Conv} {a : Args} {f : File} (hg : f.good = true) (hh : moreHeader a f ≠ []) {ints : List ℕ}
    {tys : List Ty} {dt : Option (Name × Name)} {lines : List Line} (h1 : moreInts a = .ok ints)
    (h2 : colTys a ints (keyList a (moreHeader a f)).length = .ok tys)
    (h3 : timeKey a (keyList a (moreHeader a f)) = .ok dt) (h4 : toLines f.rows = .ok lines) (hne : lines ≠ [])
    (hn : (keyList a (moreHeader a f)).Nodup)
    (h5 : ∀ l ∈ lines, ∀ x ∈ (keyList a (moreHeader a f)).zipIdx, ∃ w ty v, fetch l x.2 = .ok w ∧ tys[x.2]? = some ty ∧
      cast float ty w = .ok v)
    (h6 : ∀ l ∈ lines, ∀ d ∈ dt, ∃ ti x, gather float tys (parts a.fmt) l a.dateCols.zipIdx TimeIn.empty = .ok ti ∧
      toTime ti d.2 = .ok x) :
    ∃ r, load float a f = .ok r ∧ r.keys = keyList a (moreHeader a f) ++ (dt.map Prod.fst).toList ∧ r.keys.Nodup := by
  obtain ⟨t, ht⟩ := addRows_succeeds (fun _ => []) h5 h6
  have hnd : (keyList a (moreHeader a f) ++ (dt.map Prod.fst).toList).Nodup := by
    cases dt with
    | none => simpa using hn
    | some d =>
      rw [List.nodup_append]
      refine ⟨hn, by simp, ?_⟩
      intro x hx y hy he
      have : y = d.1 := by simpa using hy
      subst he
      rw [this] at hx
      exact (timeKey_free h3).2.2.1 hx
  have hlen : ∀ {α β : Type} {R : α → β → Prop} {l : List α} {m : List β}, List.Forall₂ R l m → l ≠ [] → m ≠ [] := by
    intro α β R l m hf hl hm
    subst hm
    cases hf
    exact hl rfl
  have hfull : ¬ (keyList a (moreHeader a f) ++ (dt.map Prod.fst).toList).any (fun k => (t k).isEmpty) = true := by
    rw [List.any_eq_true]
    rintro ⟨k, hk, he⟩
    rw [List.isEmpty_iff] at he
    rw [List.mem_append] at hk
    rcases hk with hk | hk
    · obtain ⟨j, hj⟩ := List.mem_iff_getElem?.1 hk
      obtain ⟨vs, b1, b2⟩ := addRows_cols hnd hj ht
      rw [List.nil_append, he] at b1
      exact hlen b2 hne b1.symm
    · cases dt with
      | none => simp at hk
      | some d =>
        have hd : k = d.1 := by simpa using hk
        subst hd
        obtain ⟨vs, b1, b2⟩ := addRows_time (by simpa using hnd) ht
        rw [List.nil_append, he] at b1
        exact hlen b2 hne b1.symm
  refine ⟨⟨moreHeader a f, ints, keyList a (moreHeader a f) ++ (dt.map Prod.fst).toList, t⟩, ?_, rfl, hnd⟩
  simp only [load, hg, Bool.true_eq_false, if_false, bind, Except.bind, pure, Except.pure, h1, hh, h2, h3, h4, ht, hfull]
  rfl

/-- C100: a file with at least two rows and two columns, with different names and enough cells in each row, is loaded when
each cell can be read in the type that was asked for. -/
theorem C100_succeeds {float : Conv} {a : Args} {f : File} (hg : f.good = true) (hh : moreHeader a f ≠ [])
    (hf : a.fmt = none) (hi : ∀ i ∈ a.intCols, i < (keyList a (moreHeader a f)).length)
    (hs : ∀ i ∈ a.strCols, i < (keyList a (moreHeader a f)).length) (hn : (keyList a (moreHeader a f)).Nodup)
    (hr : 2 ≤ f.rows.length) {m : ℕ} (hm : 2 ≤ m) (hc : ∀ row ∈ f.rows, row.length = m)
    (hk : (keyList a (moreHeader a f)).length ≤ m)
    (hv : ∀ row ∈ f.rows, ∀ (j : ℕ) (w : Name), j < (keyList a (moreHeader a f)).length → row[j]? = some w →
      ∃ v, cast float (wanted a a.intCols j) w = .ok v) :
    ∃ r, load float a f = .ok r ∧ r.keys = keyList a (moreHeader a f) := by
  have h1 : moreInts a = .ok a.intCols := by simp [moreInts, hf]
  obtain ⟨l1, e1⟩ := setTy_ok .int a.intCols (List.replicate (keyList a (moreHeader a f)).length .float) (by simpa using hi)
  obtain ⟨l2, e2⟩ := setTy_ok (.str (strLen a)) a.strCols l1 (by rw [(setTy_get e1).1]; simpa using hs)
  have h2 : colTys a a.intCols (keyList a (moreHeader a f)).length = .ok l2 := by
    simp only [colTys, bind, Except.bind, e1, e2, hf, pure, Except.pure]
  have h3 : timeKey a (keyList a (moreHeader a f)) = .ok none := by simp [timeKey, hf]
  have h4 : toLines f.rows = .ok (f.rows.map .row) := by
    match hrows : f.rows, hr with
    | r :: r' :: rs, _ =>
      have hl : r.length = m := hc r (by simp [hrows])
      have hall : (r' :: rs).all (fun x => x.length == r.length) = true := by
        rw [List.all_eq_true]
        intro x hx
        rw [beq_iff_eq, hl]
        exact hc x (by rw [hrows]; exact List.mem_cons_of_mem _ hx)
      simp only [toLines, hall, if_true]
      match r, hl with
      | [], hl => simp at hl; omega
      | [_], hl => simp at hl; omega
      | _ :: _ :: _, _ => rfl
  obtain ⟨r, a1, a2, -⟩ := load_succeeds (float := float) hg hh h1 h2 h3 h4 (by
      intro he
      have := congrArg List.length he
      rw [List.length_map, List.length_nil] at this
      omega) hn (by
    intro l hl x hx
    obtain ⟨row, hrow, rfl⟩ := List.mem_map.1 hl
    obtain ⟨k, j⟩ := x
    rw [List.mem_zipIdx_iff_getElem?] at hx
    simp only at hx
    have hj := (List.getElem?_eq_some_iff.1 hx).1
    have hjr : j < row.length := by rw [hc row hrow]; omega
    obtain ⟨v, hv⟩ := hv row hrow j row[j] hj (List.getElem?_eq_getElem hjr)
    exact ⟨row[j], _, v, by simp [fetch, hjr], (colTys_get h2).2 j hj, hv⟩) (by simp)
  exact ⟨r, a1, by simpa using a2⟩

/-! ### Examples -/

/-- A call with two header lines, the time in the first two columns in the default format, whole numbers in the last one -/
def exArgs : Args :=
  ⟨2, none, none, [0, 1], some "%Y-%m-%d %H:%M:%S".toList, [3], [], 50, []⟩

/-- A file with two rows -/
def exFile : File :=
  ⟨true, ["Made in 2000\n".toList, "# DAY HOUR B N\n".toList],
    [["2000-05-05".toList, "12:00:00".toList, "7".toList, "8".toList],
     ["2000-05-06".toList, "13:45:00".toList, "9".toList, "10".toList]]⟩

theorem cast_whole {w : Name} {z : ℤ} (h : readInt w = .ok z) : ∃ v, cast Ocb.Vort.wholes .float w = .ok v := by
  refine ⟨.num (some z), ?_⟩
  simp [cast, toFloat, Ocb.Vort.wholes, h, Except.map]

/-- The hypotheses of C100, C101 and C104 are met. -/
theorem exFile_loaded : ∃ r, load Ocb.Vort.wholes exArgs exFile = .ok r ∧
    r.keys = ["DAY".toList, "HOUR".toList, "B".toList, "N".toList, "datetime".toList] ∧ r.keys.Nodup := by
  have hk : keyList exArgs (moreHeader exArgs exFile) = ["DAY".toList, "HOUR".toList, "B".toList, "N".toList] := by decide
  have hdt : timeKey exArgs (keyList exArgs (moreHeader exArgs exFile))
      = .ok (some ("datetime".toList, "%Y-%m-%d %H:%M:%S".toList)) := by rw [hk]; decide
  have hty : colTys exArgs [3] (keyList exArgs (moreHeader exArgs exFile)).length = .ok [.str 50, .str 50, .float, .int] := by
    rw [hk]; decide
  obtain ⟨r, h1, h2, h3⟩ := load_succeeds (float := Ocb.Vort.wholes) (a := exArgs) (f := exFile) rfl (by decide) (ints := [3])
    (by decide) hty hdt (lines := exFile.rows.map .row) rfl (by simp [exFile]) (by rw [hk]; decide)
    (by
      rw [hk]
      intro l hl x hx
      obtain ⟨b1, hb1⟩ := cast_whole (w := "7".toList) (z := 7) (by decide)
      obtain ⟨b2, hb2⟩ := cast_whole (w := "9".toList) (z := 9) (by decide)
      have hz : ["DAY".toList, "HOUR".toList, "B".toList, "N".toList].zipIdx
        = [("DAY".toList, 0), ("HOUR".toList, 1), ("B".toList, 2), ("N".toList, 3)] := rfl
      rw [hz] at hx
      have hl' : l = .row ["2000-05-05".toList, "12:00:00".toList, "7".toList, "8".toList] ∨
        l = .row ["2000-05-06".toList, "13:45:00".toList, "9".toList, "10".toList] := by
        simpa [exFile] using hl
      have hx' : x.2 = 0 ∨ x.2 = 1 ∨ x.2 = 2 ∨ x.2 = 3 := by
        rcases List.mem_cons.1 hx with rfl | hx
        · exact .inl rfl
        rcases List.mem_cons.1 hx with rfl | hx
        · exact .inr (.inl rfl)
        rcases List.mem_cons.1 hx with rfl | hx
        · exact .inr (.inr (.inl rfl))
        · rw [List.mem_singleton.1 hx]; exact .inr (.inr (.inr rfl))
      rcases hl' with rfl | rfl
      · rcases hx' with e | e | e | e <;> rw [e]
        · exact ⟨_, _, _, rfl, rfl, rfl⟩
        · exact ⟨_, _, _, rfl, rfl, rfl⟩
        · exact ⟨_, _, _, rfl, rfl, hb1⟩
        · exact ⟨_, _, .int 8, rfl, rfl, rfl⟩
      · rcases hx' with e | e | e | e <;> rw [e]
        · exact ⟨_, _, _, rfl, rfl, rfl⟩
        · exact ⟨_, _, _, rfl, rfl, rfl⟩
        · exact ⟨_, _, _, rfl, rfl, hb2⟩
        · exact ⟨_, _, .int 10, rfl, rfl, rfl⟩)
    (by
      intro l hl d hd
      rw [Option.mem_def, Option.some.injEq] at hd
      subst hd
      have hl' : l = .row ["2000-05-05".toList, "12:00:00".toList, "7".toList, "8".toList] ∨
        l = .row ["2000-05-06".toList, "13:45:00".toList, "9".toList, "10".toList] := by
        simpa [exFile] using hl
      rcases hl' with rfl | rfl
      · have ht := C84_default_format (y := 2000) (m := 5) (d := 5) (by decide) (h := 12) (mi := 0) (s := 0)
          (by norm_num) (by norm_num) (by norm_num) none
        have hd : dateText 2000 5 5 = "2000-05-05".toList := by decide
        rw [hd] at ht
        exact ⟨⟨none, none, none, none, some (.txt "2000-05-05".toList), some (.txt "12:00:00".toList)⟩, _, rfl, ht⟩
      · have ht := C84_default_format (y := 2000) (m := 5) (d := 6) (by decide) (h := 13) (mi := 45) (s := 0)
          (by norm_num) (by norm_num) (by norm_num) none
        have hd : dateText 2000 5 6 = "2000-05-06".toList := by decide
        rw [hd] at ht
        exact ⟨⟨none, none, none, none, some (.txt "2000-05-06".toList), some (.txt "13:45:00".toList)⟩, _, rfl, ht⟩)
  rw [hk] at h2
  exact ⟨r, h1, h2, h3⟩

/-- A call for two columns of text -/
def textArgs : Args := ⟨1, none, none, [], none, [], [0, 1], 50, []⟩

/-- C100, one row: the columns A and B both get the texts "70" and "80". -/
example (float : Conv) : ∃ r, load float textArgs ⟨true, ["A B\n".toList], [["70".toList, "80".toList]]⟩ = .ok r ∧
    r.out "A".toList = [.txt "70".toList, .txt "80".toList] ∧ r.out "B".toList = [.txt "70".toList, .txt "80".toList] :=
  ⟨_, rfl, rfl, rfl⟩

/-- C100, repeated name: two rows give four values. -/
example (float : Conv) : ∃ r, load float textArgs ⟨true, ["A A\n".toList],
    [["70".toList, "80".toList], ["71".toList, "81".toList]]⟩ = .ok r ∧
    r.out "A".toList = [.txt "70".toList, .txt "80".toList, .txt "71".toList, .txt "81".toList] :=
  ⟨_, rfl, rfl⟩

/-- C103: the second file has the names of the first one. -/
example (float : Conv) : ∃ r s, load float textArgs ⟨true, ["A B\n".toList],
    [["70".toList, "80".toList], ["71".toList, "81".toList]]⟩ = .ok r ∧
    load float { textArgs with header := r.header } ⟨true, ["B A\n".toList],
      [["70".toList, "80".toList], ["71".toList, "81".toList]]⟩ = .ok s ∧ s.out "A".toList = [.txt "70".toList, .txt "71".toList] :=
  ⟨_, _, rfl, rfl, rfl⟩

/-- C104 with the option for comments: nothing is loaded. -/
example (float : Conv) : ∃ r, load float ⟨1, some ['#'], none, [], none, [], [], 50, []⟩ ⟨true, ["# A B\n".toList],
    [["70".toList, "80".toList], ["71".toList, "81".toList]]⟩ = .ok r ∧ r.keys = [] :=
  ⟨_, rfl, rfl⟩

/-- C105: the hypotheses are met by a header with two names. -/
example : moreHeader textArgs ⟨true, ["A B\n".toList], []⟩ ≠ [] ∧
    keyList textArgs (moreHeader textArgs ⟨true, ["A B\n".toList], []⟩) ≠ [] := by decide

/-- C102: "1.5" is not a whole number. -/
example : readInt "1.5".toList = .error .valueError := by decide

end Ocb.Ascii
