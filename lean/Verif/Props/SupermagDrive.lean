import Verif.Lemmas.Drive
import Verif.Props.Cycle
import Verif.Model.Supermag

/-!
# Property C59: the rows of a time are written together and once
-/

set_option autoImplicit false

namespace Ocb.Smag

open Ocb.Cycle

variable {c : Cycler} {good : ℤ → Prop}

theorem mem_sameTime {dat : List ℤ} {i j : ℕ} : j ∈ sameTime dat i ↔ j < dat.length ∧ dat[j]? = dat[i]? := by
  unfold sameTime
  simp

theorem lastSame_mem {dat : List ℤ} {i : ℕ} (h : i < dat.length) : lastSame dat i ∈ sameTime dat i := by
  unfold lastSame
  have hm := sameTime_self h
  generalize sameTime dat i = l at *
  cases l with
  | nil => simp at hm
  | cons a l => rw [List.getLastD_cons]; exact List.getLastD_mem_cons

/-- Rows of equal times follow each other in ordered data. -/
theorem between {dat : List ℤ} (hD : dat.Pairwise (· ≤ ·)) {i j k : ℕ} (h1 : i ≤ j) (h2 : j ≤ k) (hk : k ∈ sameTime dat i) :
    j ∈ sameTime dat i := by
  obtain ⟨hk1, hk2⟩ := mem_sameTime.1 hk
  refine mem_sameTime.2 ⟨by omega, ?_⟩
  have a := pairwise_tm hD i j h1 (by omega)
  have b := pairwise_tm hD j k h2 hk1
  rw [get_tm (by omega : i < dat.length), get_tm hk1, Option.some.injEq] at hk2
  rw [get_tm (by omega : j < dat.length), get_tm (by omega : i < dat.length)]
  congr 1
  omega

/-- Everything the loop guarantees when it ends normally. -/
structure GroupOut (c : Cycler) (good : ℤ → Prop) (rec0 : ℤ) (dat : List ℤ) (tol : ℤ) (i : ℕ) (r : ℤ)
    (l : List (List ℕ × ℤ)) : Prop where
  pairs : ∀ p ∈ l, ∃ a, i ≤ a ∧ a < dat.length ∧ p.1 = sameTime dat a ∧ r ≤ p.2 ∧ 0 ≤ p.2 ∧ p.2 < c.records ∧
    Cand good rec0 p.2 ∧ |tm c.times p.2 - tm dat a| ≤ tol
  incr : l.Pairwise (fun p q => (∀ j ∈ p.1, j ∉ q.1) ∧ p.2 ≤ q.2)
  order : dat.Pairwise (· ≤ ·) → l.Pairwise (fun p q => ∀ j ∈ p.1, ∀ k ∈ q.1, j < k)
  complete : dat.Pairwise (· ≤ ·) → NondecOn c.times (Cand good rec0) →
    (r = rec0 ∨ ∃ d0, (∀ j : ℕ, i ≤ j → j < dat.length → d0 ≤ tm dat j) ∧ |tm c.times r - d0| ≤ tol) →
    ∀ j : ℕ, i ≤ j → j < dat.length →
      (∃ k, 0 ≤ k ∧ k < c.records ∧ Cand good rec0 k ∧ |tm c.times k - tm dat j| ≤ tol) → ∃ p ∈ l, j ∈ p.1
  nearest : dat.Pairwise (· ≤ ·) → StrictOn c.times (Cand good rec0) →
    (r = rec0 ∨ ∀ j : ℕ, i ≤ j → j < dat.length → ∀ k, 0 ≤ k → k < r → Cand good rec0 k →
      |tm c.times r - tm dat j| ≤ |tm c.times k - tm dat j|) →
    ∀ p ∈ l, ∀ j ∈ p.1, ∀ k, 0 ≤ k → k < c.records → Cand good rec0 k →
      |tm c.times p.2 - tm dat j| ≤ |tm c.times k - tm dat j|

theorem same_tm {dat : List ℤ} {i j : ℕ} (h : j ∈ sameTime dat i) (hi : i < dat.length) : tm dat j = tm dat i := by
  obtain ⟨h1, h2⟩ := mem_sameTime.1 h
  rw [get_tm h1, get_tm hi, Option.some.injEq] at h2
  exact h2

theorem groups_out (hl : Lawful c good) (dat : List ℤ) (tol : ℤ) (htol : 0 ≤ tol) (rec0 : ℤ) (h0 : -1 ≤ rec0) :
    ∀ (m i : ℕ) (r : ℤ), dat.length - i ≤ m → (r = rec0 ∨ (0 ≤ r ∧ r < c.records ∧ Cand good rec0 r)) →
      (1 ≤ i → 0 ≤ r → ∃ l, driveGroups c dat tol i r = .ok l) ∧
      ∀ l, driveGroups c dat tol i r = .ok l → GroupOut c good rec0 dat tol i r l := by
  intro m
  induction m with
  | zero =>
    intro i r hm hr
    have hd : driveGroups c dat tol i r = .ok [] := by
      rw [driveGroups, if_neg (by omega)]
    refine ⟨fun _ _ => ⟨_, hd⟩, ?_⟩
    intro l hle
    rw [hd] at hle
    obtain rfl : ([] : List (List ℕ × ℤ)) = l := by simpa using hle
    exact ⟨by simp, by simp, by simp, fun _ _ _ j h1 h2 => by omega, by simp⟩
  | succ m ih =>
    intro i r hm hr
    have hrr : rec0 ≤ r := by
      rcases hr with rfl | ⟨-, -, hr⟩
      · exact le_rfl
      · exact hr.1
    have hcand : r = rec0 ∨ Cand good rec0 r := hr.imp id (fun h => h.2.2)
    by_cases hc : i < dat.length ∧ r < c.records
    · obtain ⟨out, q, e, hm'⟩ := matchData_out hl r dat i tol (by omega) htol
      have hdrive : driveGroups c dat tol i r = (match out, q with
          | none, _ => Except.error PyErr.typeError
          | some i', r' =>
            if i' < dat.length ∧ r' < c.records then
              match driveGroups c dat tol (lastSame dat i' + 1) r' with
              | .error e => .error e
              | .ok l => .ok ((sameTime dat i', r') :: l)
            else .ok []) := by
        rw [driveGroups, if_pos hc]
        split
        · simp_all
        · rename_i h
          rw [e] at h
          obtain ⟨rfl, rfl⟩ : out = none ∧ q = _ := by simpa using h
          rfl
        · rename_i h
          rw [e] at h
          obtain ⟨rfl, rfl⟩ : out = some _ ∧ q = _ := by simpa using h
          simp only
          split <;> rfl
      have hsubN : NondecOn c.times (Cand good rec0) → NondecOn c.times (Cand good r) :=
        fun h a b x y hab pa pb ha hb =>
          h a b x y hab ((cand_from hcand).1 pa).2 ((cand_from hcand).1 pb).2 ha hb
      have hsubS : StrictOn c.times (Cand good rec0) → StrictOn c.times (Cand good r) :=
        fun h a b x y hab pa pb ha hb =>
          h a b x y hab ((cand_from hcand).1 pa).2 ((cand_from hcand).1 pb).2 ha hb
      -- a datum with a candidate within the tolerance has one at or after the cursor
      have hlift : NondecOn c.times (Cand good rec0) →
          (r = rec0 ∨ ∃ d0, (∀ j : ℕ, i ≤ j → j < dat.length → d0 ≤ tm dat j) ∧ |tm c.times r - d0| ≤ tol) →
          ∀ j : ℕ, i ≤ j → j < dat.length →
          (∃ k, 0 ≤ k ∧ k < c.records ∧ Cand good rec0 k ∧ |tm c.times k - tm dat j| ≤ tol) →
          ∃ k, 0 ≤ k ∧ k < c.records ∧ Cand good r k ∧ |tm c.times k - tm dat j| ≤ tol := by
        intro hN hinv j hj1 hj2 ⟨k, k0, k1, k2, k3⟩
        rcases lt_or_ge k r with hkr | hkr
        · rcases hinv with rfl | ⟨d0, hd0, hd1⟩
          · have := k2.1; omega
          · have hGr : Cand good rec0 r := by
              rcases hr with rfl | hr
              · have := k2.1; omega
              · exact hr.2.2
            refine ⟨r, by omega, hc.2, ⟨le_rfl, Or.inl rfl⟩, ?_⟩
            exact within_later (nondec_tm hN k r k0 hkr.le hc.2 k2 hGr) (hd0 j hj1 hj2) hd1 k3
        · exact ⟨k, k0, k1, (cand_from hcand).2 ⟨hkr, k2⟩, k3⟩
      cases hm' with
      | hit i' _ a1 a2 a3 a4 a5 a6 a7 a8 =>
        have hG := (cand_from hcand).1 a5
        have hlast := le_lastSame (sameTime_self a2)
        obtain ⟨ih1, ih2⟩ := ih (lastSame dat i' + 1) q (by omega) (Or.inr ⟨a3, a4, hG.2⟩)
        simp only [if_pos (And.intro a2 a4)] at hdrive
        obtain ⟨l', hl'⟩ := ih1 (by omega) a3
        rw [hl'] at hdrive
        simp only at hdrive
        refine ⟨fun _ _ => ⟨_, hdrive⟩, ?_⟩
        intro l hle
        rw [hdrive] at hle
        obtain rfl : (sameTime dat i', q) :: l' = l := by simpa using hle
        obtain ⟨b1, b2, b2', b3, b4⟩ := ih2 l' hl'
        refine ⟨?_, ?_, ?_, ?_, ?_⟩
        · intro p hp
          rcases List.mem_cons.1 hp with rfl | hp
          · exact ⟨i', a1, a2, rfl, hG.1, a3, a4, hG.2, a6⟩
          · obtain ⟨a, x1, x2, x3, x4, x5, x6, x7, x8⟩ := b1 p hp
            exact ⟨a, by omega, x2, x3, by have := hG.1; omega, x5, x6, x7, x8⟩
        · refine List.pairwise_cons.2 ⟨?_, b2⟩
          intro p hp
          obtain ⟨a, x1, x2, x3, x4, -⟩ := b1 p hp
          refine ⟨fun j hj hj' => ?_, x4⟩
          rw [x3] at hj'
          have hj := mem_sameTime.1 hj
          have hj' := mem_sameTime.1 hj'
          have : a ∈ sameTime dat i' := mem_sameTime.2 ⟨x2, by rw [← hj'.2, hj.2]⟩
          have := le_lastSame this
          omega
        · intro hD
          refine List.pairwise_cons.2 ⟨?_, b2' hD⟩
          intro p hp j hj k hk
          obtain ⟨a, x1, x2, x3, -⟩ := b1 p hp
          rw [x3] at hk
          have e1 := same_tm hj a2
          have e2 := same_tm hk x2
          have hjl := le_lastSame hj
          by_contra hcon
          have hk1 := (mem_sameTime.1 hk).1
          have hji := (mem_sameTime.1 hj).1
          have m1 := pairwise_tm hD k j (by omega) hji
          have m2 := pairwise_tm hD i' a (by omega) x2
          have hai : a ∈ sameTime dat i' := mem_sameTime.2 ⟨x2, by
            rw [get_tm x2, get_tm a2]; congr 1; omega⟩
          have := le_lastSame hai
          omega
        · intro hD hN hinv j hj1 hj2 hex
          rcases lt_or_ge j i' with hji | hji
          · obtain ⟨k, k0, k1, k2, k3⟩ := hlift hN hinv j hj1 hj2 hex
            have := a7 hD (hsubN hN) j hj1 hji k k0 k1 k2
            omega
          · rcases Nat.lt_or_ge (lastSame dat i') j with hjl | hjl
            · obtain ⟨p, hp, hpj⟩ := b3 hD hN
                (Or.inr ⟨tm dat i', fun j h1 h2 => pairwise_tm hD i' j (by omega) h2, a6⟩) j (by omega) hj2 hex
              exact ⟨p, List.mem_cons_of_mem _ hp, hpj⟩
            · exact ⟨_, List.mem_cons_self, between hD hji hjl (lastSame_mem a2)⟩
        · intro hD hS hinv
          have hnear : ∀ k, 0 ≤ k → k < c.records → Cand good rec0 k →
              |tm c.times q - tm dat i'| ≤ |tm c.times k - tm dat i'| := by
            intro k k0 k1 k2
            rcases lt_or_ge k r with hkr | hkr
            · rcases hinv with rfl | hinv
              · have := k2.1; omega
              · refine (a8 hD (hsubS hS) r (by omega) hc.2 ⟨le_rfl, Or.inl rfl⟩).trans ?_
                exact hinv i' a1 a2 k k0 hkr k2
            · exact a8 hD (hsubS hS) k k0 k1 ((cand_from hcand).2 ⟨hkr, k2⟩)
          intro p hp j hj k k0 k1 k2
          rcases List.mem_cons.1 hp with rfl | hp
          · rw [same_tm hj a2]
            exact hnear k k0 k1 k2
          · refine b4 hD hS (Or.inr ?_) p hp j hj k k0 k1 k2
            intro j hj1 hj2 k' k0' k1' k2'
            refine nearest_later (strict_tm hS k' q k0' k1' a4 k2' hG.2)
              (pairwise_tm hD i' j (by omega) hj2) (hnear k' k0' (by omega) k2')
      | over i' _ a0 a1 a2 a3 =>
        have hneg : ¬ (i' < dat.length ∧ q < c.records) := by omega
        simp only [if_neg hneg] at hdrive
        refine ⟨fun _ _ => ⟨_, hdrive⟩, ?_⟩
        intro l hle
        rw [hdrive] at hle
        obtain rfl : ([] : List (List ℕ × ℤ)) = l := by simpa using hle
        refine ⟨by simp, by simp, by simp, ?_, by simp⟩
        intro hD hN hinv j hj1 hj2 hex
        obtain ⟨k, k0, k1, k2, k3⟩ := hlift hN hinv j hj1 hj2 hex
        have := a3 hD (hsubN hN) j hj1 hj2 k k0 k1 k2
        omega
      | early r' a0 =>
        refine ⟨fun _ h => by omega, ?_⟩
        intro l hle
        rw [hdrive] at hle
        simp at hle
      | late r' a0 a1 =>
        refine ⟨fun h _ => by omega, ?_⟩
        intro l hle
        rw [hdrive] at hle
        simp at hle
    · have hd : driveGroups c dat tol i r = .ok [] := by
        rw [driveGroups, if_neg hc]
      refine ⟨fun _ _ => ⟨_, hd⟩, ?_⟩
      intro l hle
      rw [hd] at hle
      obtain rfl : ([] : List (List ℕ × ℤ)) = l := by simpa using hle
      refine ⟨by simp, by simp, by simp, ?_, by simp⟩
      intro hD hN hinv j hj1 hj2 ⟨k, k0, k1, k2, k3⟩
      have hrc : c.records ≤ r := by omega
      rcases hr with rfl | hr
      · have := k2.1; omega
      · omega

/-- C59: whatever the order of the data, each group is all the rows of one time, paired with a candidate record within the
tolerance, and no row is written twice; for ordered data the rows are written in increasing order. -/
theorem C59_groups (hb : IsBoundary c good) (dat : List ℤ) (tol : ℤ) (htol : 0 ≤ tol) (rec : ℤ) (h0 : -1 ≤ rec)
    (l : List (List ℕ × ℤ)) (h : driveGroups c dat tol 0 rec = .ok l) :
    (∀ p ∈ l, p.1 ≠ [] ∧ p.1.Pairwise (· < ·) ∧ Cand good rec p.2 ∧ (∃ t, ∀ j, j ∈ p.1 ↔ dat[j]? = some t) ∧
      ∀ j ∈ p.1, Close c dat tol j p.2) ∧
    (l.flatMap Prod.fst).Nodup ∧ l.Pairwise (fun p q => p.2 ≤ q.2) ∧
    (dat.Pairwise (· ≤ ·) → (l.flatMap Prod.fst).Pairwise (· < ·)) := by
  obtain ⟨h1, h2, h3, -, -⟩ := ((groups_out hb.lawful dat tol htol rec h0) _ 0 rec le_rfl (Or.inl rfl)).2 l h
  have hs : ∀ p ∈ l, p.1.Pairwise (· < ·) := by
    intro p hp
    obtain ⟨a, -, -, x3, -⟩ := h1 p hp
    rw [x3]
    exact sameTime_sorted dat a
  refine ⟨?_, ?_, h2.imp fun h => h.2, ?_⟩
  · intro p hp
    obtain ⟨a, -, x2, x3, -, x5, x6, x7, x8⟩ := h1 p hp
    refine ⟨?_, hs p hp, x7, ⟨tm dat a, ?_⟩, ?_⟩
    · rw [x3]
      exact List.ne_nil_of_mem (sameTime_self x2)
    · intro j
      rw [x3, mem_sameTime, get_tm x2]
      constructor
      · exact fun h => h.2
      · exact fun h => ⟨(List.getElem?_eq_some_iff.1 h).1, h⟩
    · intro j hj
      rw [x3] at hj
      refine ⟨_, _, get_tm (mem_sameTime.1 hj).1, at_tm x5 x6, ?_⟩
      rw [same_tm hj x2]
      exact x8
  · rw [List.nodup_flatMap]
    exact ⟨fun p hp => (hs p hp).imp fun h => h.ne, h2.imp fun h j hj hj' => h.1 j hj hj'⟩
  · intro hD
    rw [List.pairwise_flatMap]
    exact ⟨hs, h3 hD⟩

/-- C59: for ordered data a row is written exactly if some candidate record is within the tolerance of its time. -/
theorem C59_complete (hb : IsBoundary c good) (dat : List ℤ) (tol : ℤ) (htol : 0 ≤ tol) (rec : ℤ)
    (h0 : -1 ≤ rec) (hD : dat.Pairwise (· ≤ ·)) (hN : NondecOn c.times (Cand good rec))
    (l : List (List ℕ × ℤ)) (h : driveGroups c dat tol 0 rec = .ok l) (j : ℕ) :
    j ∈ l.flatMap Prod.fst ↔ ∃ k, Cand good rec k ∧ Close c dat tol j k := by
  obtain ⟨-, -, -, h4, -⟩ := ((groups_out hb.lawful dat tol htol rec h0) _ 0 rec le_rfl (Or.inl rfl)).2 l h
  rw [List.mem_flatMap]
  constructor
  · rintro ⟨p, hp, hj⟩
    obtain ⟨-, -, x3, -, x5⟩ := (C59_groups hb dat tol htol rec h0 l h).1 p hp
    exact ⟨p.2, x3, x5 j hj⟩
  · rintro ⟨k, hk, d, t, hd, ht, hc⟩
    obtain ⟨hk0, hk1, rfl⟩ := at_eq ht
    obtain rfl : tm dat j = d := tm_some hd
    exact h4 hD hN (Or.inl rfl) j (Nat.zero_le _) (List.getElem?_eq_some_iff.1 hd).1 ⟨k, hk0, hk1, hk, hc⟩

/-- C59: for ordered data and increasing record times, each row is paired with a nearest candidate record. -/
theorem C59_nearest (hb : IsBoundary c good) (dat : List ℤ) (tol : ℤ) (htol : 0 ≤ tol) (rec : ℤ)
    (h0 : -1 ≤ rec) (hD : dat.Pairwise (· ≤ ·)) (hS : StrictOn c.times (Cand good rec))
    (l : List (List ℕ × ℤ)) (h : driveGroups c dat tol 0 rec = .ok l) (p : List ℕ × ℤ) (hp : p ∈ l) (j : ℕ) (hj : j ∈ p.1)
    (k : ℤ) (hk : Cand good rec k) : NoFarther c dat j p.2 k := by
  obtain ⟨-, -, -, -, h5⟩ := ((groups_out hb.lawful dat tol htol rec h0) _ 0 rec le_rfl (Or.inl rfl)).2 l h
  intro d t t' hd ht ht'
  obtain ⟨hk0, hk1, rfl⟩ := at_eq ht'
  obtain ⟨-, -, rfl⟩ := at_eq ht
  obtain rfl : tm dat j = d := tm_some hd
  exact h5 hD hS (Or.inl rfl) p hp j hj k hk0 hk1 hk

theorem groups_unfold {dat : List ℤ} {tol rec q : ℤ} {i : ℕ} {out : Option ℕ} (hc : i < dat.length ∧ rec < c.records)
    (em : matchData c rec dat i tol = .ok (out, q)) : driveGroups c dat tol i rec = (match out with
      | none => .error .typeError
      | some i' => if i' < dat.length ∧ q < c.records then
          match driveGroups c dat tol (lastSame dat i' + 1) q with
          | .error e => .error e
          | .ok l => .ok ((sameTime dat i', q) :: l)
        else .ok []) := by
  rw [driveGroups, if_pos hc]
  split
  · rename_i h; rw [em] at h; simp at h
  · rename_i h
    rw [em] at h
    obtain ⟨rfl, -⟩ : out = none ∧ q = _ := by simpa using h
    rfl
  · rename_i i' r' h
    rw [em] at h
    obtain ⟨rfl, rfl⟩ : out = some i' ∧ q = r' := by simpa using h
    simp only
    split <;> rfl

theorem drive_unfold {dat : List ℤ} {tol rec q : ℤ} {i : ℕ} {out : Option ℕ} (hc : i < dat.length ∧ rec < c.records)
    (em : matchData c rec dat i tol = .ok (out, q)) : drive c dat tol i rec = (match out with
      | none => .error .typeError
      | some i' => if i' < dat.length ∧ q < c.records then
          match drive c dat tol (i' + 1) q with
          | .error e => .error e
          | .ok l => .ok ((i', q) :: l)
        else .ok []) := by
  rw [drive, if_pos hc]
  split
  · rename_i h; rw [em] at h; simp at h
  · rename_i h
    rw [em] at h
    obtain ⟨rfl, -⟩ : out = none ∧ q = _ := by simpa using h
    rfl
  · rename_i i' r' h
    rw [em] at h
    obtain ⟨rfl, rfl⟩ : out = some i' ∧ q = r' := by simpa using h
    rfl

/-- C59: the loop fails exactly when the first search finds no overlap, and then with a TypeError. -/
theorem C59_error_iff (hb : IsBoundary c good) (dat : List ℤ) (tol : ℤ) (htol : 0 ≤ tol) (rec : ℤ)
    (h0 : -1 ≤ rec) (hD : dat.Pairwise (· ≤ ·)) (hN : NondecOn c.times (Cand good rec)) (e : PyErr) :
    driveGroups c dat tol 0 rec = .error e ↔ e = .typeError ∧ NoOverlap c good rec dat tol := by
  rw [← C60_drive_error_iff_partial hb dat tol htol rec h0 hD hN e]
  by_cases hc : 0 < dat.length ∧ rec < c.records
  · obtain ⟨out, q, em, hm⟩ := matchData_out hb.lawful rec dat 0 tol h0 htol
    rw [groups_unfold hc em, drive_unfold hc em]
    cases hm with
    | hit i' _ a1 a2 a3 a4 a5 =>
      obtain ⟨l, hl'⟩ := ((groups_out hb.lawful dat tol htol rec h0) _ (lastSame dat i' + 1) q le_rfl
        (Or.inr ⟨a3, a4, a5⟩)).1 (by omega) a3
      obtain ⟨l2, hl2⟩ := ((drive_out hb.lawful dat tol htol rec h0) _ (i' + 1) q le_rfl
        (Or.inr ⟨a3, a4, a5⟩)).1 (by omega) a3
      simp only [if_pos (And.intro a2 a4), hl', hl2]
      simp
    | over i' _ a0 a1 a2 a3 =>
      simp only [if_neg (show ¬ (i' < dat.length ∧ q < c.records) by omega)]
      simp
    | early _ _ => simp
    | late _ _ => simp
  · rw [driveGroups, drive, if_neg hc, if_neg hc]
    simp

/-- Both rows of the only time are written with the only record. -/
example : driveGroups (dualCycler [7]) [7, 7] 10 0 0 = .ok [([0, 1], 0)] := by
  have em : matchData (dualCycler [7]) 0 [7, 7] 0 10 = .ok (some 0, 0) := by
    unfold matchData
    rfl
  rw [groups_unfold ⟨by decide, by decide⟩ em]
  simp only
  rw [if_pos ⟨by decide, by decide⟩, show lastSame [7, 7] 0 = 1 by decide, show sameTime [7, 7] 0 = [0, 1] by decide,
    driveGroups, if_neg (by decide)]

end Ocb.Smag
