import Verif.Lemmas.Cycle

/-! # Lemmas about the driver loop -/

set_option autoImplicit false

namespace Ocb

namespace Cycle

variable {c : Cycler} {good : ℤ → Prop}

theorem cand_from {rec0 r k : ℤ} (hr : r = rec0 ∨ Cand good rec0 r) : Cand good r k ↔ r ≤ k ∧ Cand good rec0 k := by
  constructor
  · rintro ⟨h1, h2⟩
    refine ⟨h1, ?_⟩
    rcases hr with rfl | hr
    · exact ⟨h1, h2⟩
    · rcases h2 with rfl | h2
      · exact hr
      · exact ⟨by have := hr.1; omega, Or.inr h2⟩
  · rintro ⟨h1, h2, h3⟩
    refine ⟨h1, ?_⟩
    rcases h3 with rfl | h3
    · rcases hr with rfl | hr
      · exact Or.inl rfl
      · have := hr.1
        left; omega
    · exact Or.inr h3

theorem strict_nondec {l : List ℤ} {p : ℤ → Prop} (h : StrictOn l p) : NondecOn l p := by
  intro a b x y hab pa pb ha hb
  rcases eq_or_lt_of_le hab with rfl | hab
  · obtain ⟨-, -, rfl⟩ := at_eq ha
    obtain ⟨-, -, rfl⟩ := at_eq hb
    exact le_rfl
  · exact (h a b x y hab pa pb ha hb).le

theorem nearest_later {a b d e : ℤ} (hab : a < b) (hde : d ≤ e) (h : |b - d| ≤ |a - d|) : |b - e| ≤ |a - e| := by
  rw [Int.abs_eq_natAbs, Int.abs_eq_natAbs] at *
  omega

theorem within_later {a b d e tol : ℤ} (hab : a ≤ b) (hde : d ≤ e) (h : |b - d| ≤ tol) (h' : |a - e| ≤ tol) :
    |b - e| ≤ tol := by
  rw [Int.abs_eq_natAbs] at *
  omega

/-- Everything the driver loop guarantees when it ends normally. -/
structure DriveOut (c : Cycler) (good : ℤ → Prop) (rec0 : ℤ) (dat : List ℤ) (tol : ℤ) (i : ℕ) (r : ℤ)
    (l : List (ℕ × ℤ)) : Prop where
  pairs : ∀ p ∈ l, i ≤ p.1 ∧ p.1 < dat.length ∧ r ≤ p.2 ∧ 0 ≤ p.2 ∧ p.2 < c.records ∧ Cand good rec0 p.2 ∧
    |tm c.times p.2 - tm dat p.1| ≤ tol
  incr : l.Pairwise (fun p q => p.1 < q.1 ∧ p.2 ≤ q.2)
  complete : dat.Pairwise (· ≤ ·) → NondecOn c.times (Cand good rec0) →
    (r = rec0 ∨ ∃ d0, (∀ j : ℕ, i ≤ j → j < dat.length → d0 ≤ tm dat j) ∧ |tm c.times r - d0| ≤ tol) →
    ∀ j : ℕ, i ≤ j → j < dat.length →
      (∃ k, 0 ≤ k ∧ k < c.records ∧ Cand good rec0 k ∧ |tm c.times k - tm dat j| ≤ tol) → ∃ p ∈ l, p.1 = j
  nearest : dat.Pairwise (· ≤ ·) → StrictOn c.times (Cand good rec0) →
    (r = rec0 ∨ ∀ j : ℕ, i ≤ j → j < dat.length → ∀ k, 0 ≤ k → k < r → Cand good rec0 k →
      |tm c.times r - tm dat j| ≤ |tm c.times k - tm dat j|) →
    ∀ p ∈ l, ∀ k, 0 ≤ k → k < c.records → Cand good rec0 k →
      |tm c.times p.2 - tm dat p.1| ≤ |tm c.times k - tm dat p.1|

theorem drive_out (hl : Lawful c good) (dat : List ℤ) (tol : ℤ) (htol : 0 ≤ tol) (rec0 : ℤ) (h0 : -1 ≤ rec0) :
    ∀ (m i : ℕ) (r : ℤ), dat.length - i ≤ m → (r = rec0 ∨ (0 ≤ r ∧ r < c.records ∧ Cand good rec0 r)) →
      (1 ≤ i → 0 ≤ r → ∃ l, drive c dat tol i r = .ok l) ∧
      ∀ l, drive c dat tol i r = .ok l → DriveOut c good rec0 dat tol i r l := by
  intro m
  induction m with
  | zero =>
    intro i r hm hr
    have hd : drive c dat tol i r = .ok [] := by
      rw [drive, if_neg (by omega)]
    refine ⟨fun _ _ => ⟨_, hd⟩, ?_⟩
    intro l hle
    rw [hd] at hle
    obtain rfl : ([] : List (ℕ × ℤ)) = l := by simpa using hle
    exact ⟨by simp, by simp, fun _ _ _ j h1 h2 => by omega, by simp⟩
  | succ m ih =>
    intro i r hm hr
    have hrr : rec0 ≤ r := by
      rcases hr with rfl | ⟨-, -, hr⟩
      · exact le_rfl
      · exact hr.1
    have hcand : r = rec0 ∨ Cand good rec0 r := hr.imp id (fun h => h.2.2)
    by_cases hc : i < dat.length ∧ r < c.records
    · obtain ⟨out, q, e, hm'⟩ := matchData_out hl r dat i tol (by omega) htol
      have hdrive : drive c dat tol i r = (match out, q with
          | none, _ => Except.error PyErr.typeError
          | some i', r' =>
            if i' < dat.length ∧ r' < c.records then
              match drive c dat tol (i' + 1) r' with
              | .error e => .error e
              | .ok l => .ok ((i', r') :: l)
            else .ok []) := by
        rw [drive, if_pos hc]
        split
        · simp_all
        · rename_i h
          rw [e] at h
          obtain ⟨rfl, rfl⟩ : out = none ∧ q = _ := by simpa using h
          rfl
        · rename_i h
          rw [e] at h
          obtain ⟨rfl, rfl⟩ : out = some _ ∧ q = _ := by simpa using h
          rfl
      have hsubN : NondecOn c.times (Cand good rec0) → NondecOn c.times (Cand good r) :=
        fun h a b x y hab pa pb ha hb =>
          h a b x y hab ((cand_from hcand).1 pa).2 ((cand_from hcand).1 pb).2 ha hb
      have hsubS : StrictOn c.times (Cand good rec0) → StrictOn c.times (Cand good r) :=
        fun h a b x y hab pa pb ha hb =>
          h a b x y hab ((cand_from hcand).1 pa).2 ((cand_from hcand).1 pb).2 ha hb
      -- a datum with a candidate within the tolerance has one at or after the cursor
      have hlift : NondecOn c.times (Cand good rec0) →
          (r = rec0 ∨ ∃ d0, (∀ j : ℕ, i ≤ j → j < dat.length → d0 ≤ tm dat j) ∧ |tm c.times r - d0| ≤ tol) →
          ∀ j : ℕ, i ≤ j → j < dat.length →
          (∃ k, 0 ≤ k ∧ k < c.records ∧ Cand good rec0 k ∧ |tm c.times k - tm dat j| ≤ tol) →
          ∃ k, 0 ≤ k ∧ k < c.records ∧ Cand good r k ∧ |tm c.times k - tm dat j| ≤ tol := by
        intro hN hinv j hj1 hj2 ⟨k, k0, k1, k2, k3⟩
        rcases lt_or_ge k r with hkr | hkr
        · rcases hinv with rfl | ⟨d0, hd0, hd1⟩
          · have := k2.1; omega
          · have hGr : Cand good rec0 r := by
              rcases hr with rfl | hr
              · have := k2.1; omega
              · exact hr.2.2
            refine ⟨r, by omega, hc.2, ⟨le_rfl, Or.inl rfl⟩, ?_⟩
            exact within_later (nondec_tm hN k r k0 hkr.le hc.2 k2 hGr) (hd0 j hj1 hj2) hd1 k3
        · exact ⟨k, k0, k1, (cand_from hcand).2 ⟨hkr, k2⟩, k3⟩
      cases hm' with
      | hit i' _ a1 a2 a3 a4 a5 a6 a7 a8 =>
        have hG := (cand_from hcand).1 a5
        obtain ⟨ih1, ih2⟩ := ih (i' + 1) q (by omega) (Or.inr ⟨a3, a4, hG.2⟩)
        simp only [if_pos (And.intro a2 a4)] at hdrive
        obtain ⟨l', hl'⟩ := ih1 (by omega) a3
        rw [hl'] at hdrive
        simp only at hdrive
        refine ⟨fun _ _ => ⟨_, hdrive⟩, ?_⟩
        intro l hle
        rw [hdrive] at hle
        obtain rfl : (i', q) :: l' = l := by simpa using hle
        obtain ⟨b1, b2, b3, b4⟩ := ih2 l' hl'
        refine ⟨?_, ?_, ?_, ?_⟩
        · intro p hp
          rcases List.mem_cons.1 hp with rfl | hp
          · exact ⟨a1, a2, hG.1, a3, a4, hG.2, a6⟩
          · obtain ⟨x1, x2, x3, x4, x5, x6, x7⟩ := b1 p hp
            exact ⟨by omega, x2, by have := hG.1; omega, x4, x5, x6, x7⟩
        · refine List.pairwise_cons.2 ⟨?_, b2⟩
          intro p hp
          obtain ⟨x1, x2, x3, -⟩ := b1 p hp
          exact ⟨by simp only; omega, x3⟩
        · intro hD hN hinv j hj1 hj2 hex
          rcases lt_trichotomy j i' with hji | rfl | hji
          · obtain ⟨k, k0, k1, k2, k3⟩ := hlift hN hinv j hj1 hj2 hex
            have := a7 hD (hsubN hN) j hj1 hji k k0 k1 k2
            omega
          · exact ⟨_, List.mem_cons_self, rfl⟩
          · obtain ⟨p, hp, hpj⟩ := b3 hD hN
              (Or.inr ⟨tm dat i', fun j h1 h2 => pairwise_tm hD i' j (by omega) h2, a6⟩) j (by omega) hj2 hex
            exact ⟨p, List.mem_cons_of_mem _ hp, hpj⟩
        · intro hD hS hinv
          have hnear : ∀ k, 0 ≤ k → k < c.records → Cand good rec0 k →
              |tm c.times q - tm dat i'| ≤ |tm c.times k - tm dat i'| := by
            intro k k0 k1 k2
            rcases lt_or_ge k r with hkr | hkr
            · rcases hinv with rfl | hinv
              · have := k2.1; omega
              · refine (a8 hD (hsubS hS) r (by omega) hc.2 ⟨le_rfl, Or.inl rfl⟩).trans ?_
                exact hinv i' a1 a2 k k0 hkr k2
            · exact a8 hD (hsubS hS) k k0 k1 ((cand_from hcand).2 ⟨hkr, k2⟩)
          intro p hp k k0 k1 k2
          rcases List.mem_cons.1 hp with rfl | hp
          · exact hnear k k0 k1 k2
          · refine b4 hD hS (Or.inr ?_) p hp k k0 k1 k2
            intro j hj1 hj2 k' k0' k1' k2'
            refine nearest_later (strict_tm hS k' q k0' k1' a4 k2' hG.2)
              (pairwise_tm hD i' j (by omega) hj2) (hnear k' k0' (by omega) k2')
      | over i' _ a0 a1 a2 a3 =>
        have hneg : ¬ (i' < dat.length ∧ q < c.records) := by omega
        simp only [if_neg hneg] at hdrive
        refine ⟨fun _ _ => ⟨_, hdrive⟩, ?_⟩
        intro l hle
        rw [hdrive] at hle
        obtain rfl : ([] : List (ℕ × ℤ)) = l := by simpa using hle
        refine ⟨by simp, by simp, ?_, by simp⟩
        intro hD hN hinv j hj1 hj2 hex
        obtain ⟨k, k0, k1, k2, k3⟩ := hlift hN hinv j hj1 hj2 hex
        have := a3 hD (hsubN hN) j hj1 hj2 k k0 k1 k2
        omega
      | early r' a0 =>
        refine ⟨fun _ h => by omega, ?_⟩
        intro l hle
        rw [hdrive] at hle
        simp at hle
      | late r' a0 a1 =>
        refine ⟨fun h _ => by omega, ?_⟩
        intro l hle
        rw [hdrive] at hle
        simp at hle
    · have hd : drive c dat tol i r = .ok [] := by
        rw [drive, if_neg hc]
      refine ⟨fun _ _ => ⟨_, hd⟩, ?_⟩
      intro l hle
      rw [hd] at hle
      obtain rfl : ([] : List (ℕ × ℤ)) = l := by simpa using hle
      refine ⟨by simp, by simp, ?_, by simp⟩
      intro hD hN hinv j hj1 hj2 ⟨k, k0, k1, k2, k3⟩
      have hrc : c.records ≤ r := by omega
      rcases hr with rfl | hr
      · have := k2.1; omega
      · omega

/-- Nothing matched and the matcher said so with `None`. -/
def NoneCond (c : Cycler) (good : ℤ → Prop) (rec : ℤ) (dat : List ℤ) (tol : ℤ) : Prop :=
  0 < dat.length ∧
    ((rec = -1 ∧ ∃ f, 0 ≤ f ∧ f < c.records ∧ good f ∧ (∀ k, 0 ≤ k → k < f → ¬ good k) ∧
        ∀ j : ℕ, j < dat.length → tm dat j < tm c.times f - tol) ∨
      ((∃ k, 0 ≤ k ∧ k < c.records ∧ Cand good rec k) ∧
        ∀ k, 0 ≤ k → k < c.records → Cand good rec k → tm c.times k < tm dat 0 - tol))

theorem matchData_none_iff (hl : Lawful c good) (dat : List ℤ) (tol : ℤ) (htol : 0 ≤ tol) (rec : ℤ) (h0 : -1 ≤ rec)
    (hD : dat.Pairwise (· ≤ ·)) (hN : NondecOn c.times (Cand good rec)) {out : Option ℕ} {q : ℤ}
    (e : matchData c rec dat 0 tol = .ok (out, q)) : out = none ↔ NoneCond c good rec dat tol := by
  obtain ⟨out', q', e', hm⟩ := matchData_out hl rec dat 0 tol h0 htol
  rw [e] at e'
  obtain ⟨rfl, rfl⟩ : out = out' ∧ q = q' := by simpa using e'
  cases hm with
  | hit i _ a1 a2 a3 a4 a5 a6 a7 a8 =>
    refine ⟨fun h => by simp at h, ?_⟩
    rintro ⟨hn, ⟨rfl, f, f0, f1, f2, f3, f4⟩ | ⟨-, hk⟩⟩
    · exfalso
      have h1 := f4 i a2
      have hfq : f ≤ q := by
        rcases a5.2 with h | h
        · omega
        · by_contra hc
          exact f3 q a3 (by omega) h
      have h2 := nondec_tm hN f q f0 hfq a4 ⟨by omega, Or.inr f2⟩ a5
      have h3 := le_abs_self (tm c.times q - tm dat i)
      omega
    · exfalso
      have h1 := hk q a3 a4 a5
      have h2 : tm dat (0 : ℕ) ≤ tm dat i := pairwise_tm hD 0 i (by omega) a2
      have h3 := neg_le_abs (tm c.times q - tm dat i)
      norm_cast at h2
      push_cast at h2
      omega
  | over i _ a0 a1 a2 a3 b4 b5 b6 =>
    refine ⟨fun h => by simp at h, ?_⟩
    rintro ⟨hn, ⟨rfl, f, f0, f1, f2, f3, f4⟩ | ⟨⟨k, k0, k1, k2⟩, hk⟩⟩
    · obtain ⟨j, j1, j2, j3⟩ := b6 rfl hn f f0 f1 f2 f3
      have := f4 j j2
      omega
    · rcases Nat.eq_zero_or_pos i with hi | hi
      · rcases b4 hi with h | h
        · omega
        · exact absurd k2 (h k k0 k1)
      · obtain ⟨k', k0', k1', k2', k3'⟩ := b5 hi
        have h1 := hk k' k0' k1' k2'
        push_cast at k3'
        omega
  | early _ a0 a1 a2 a3 a4 a5 =>
    simp only [true_iff]
    by_cases hn : 0 < dat.length
    · exact ⟨hn, Or.inl ⟨a0, q, a1, a2, a3, a4, fun j hj => a5 j (by omega) hj⟩⟩
    · unfold matchData at e
      rw [if_pos (by omega)] at e
      simp at e
  | late _ a0 a1 a2 an ae a3 =>
    simp only [true_iff]
    exact ⟨an, Or.inr ⟨ae, a3⟩⟩

/-- The driver loop fails exactly when the first search returns `None`, and then with a `TypeError`. -/
theorem drive_error_iff (hl : Lawful c good) (dat : List ℤ) (tol : ℤ) (htol : 0 ≤ tol) (rec : ℤ) (h0 : -1 ≤ rec)
    (hD : dat.Pairwise (· ≤ ·)) (hN : NondecOn c.times (Cand good rec)) (e : PyErr) :
    drive c dat tol 0 rec = .error e ↔ e = .typeError ∧ NoneCond c good rec dat tol := by
  by_cases hc : 0 < dat.length ∧ rec < c.records
  · obtain ⟨out, q, em, hm⟩ := matchData_out hl rec dat 0 tol h0 htol
    have hnone := matchData_none_iff hl dat tol htol rec h0 hD hN em
    rw [drive, if_pos hc]
    split
    · simp_all
    · rename_i h
      rw [em] at h
      obtain ⟨rfl, rfl⟩ : out = none ∧ q = _ := by simpa using h
      have := hnone.1 rfl
      constructor
      · intro h; exact ⟨by simpa using h.symm, this⟩
      · rintro ⟨rfl, -⟩; rfl
    · rename_i i' r' h
      rw [em] at h
      obtain ⟨rfl, rfl⟩ : out = some i' ∧ q = r' := by simpa using h
      have hno : ¬ NoneCond c good rec dat tol := fun h => by simpa using hnone.2 h
      simp only [hno, and_false, iff_false]
      split
      · rename_i hlt
        cases hm with
        | hit _ _ a1 a2 a3 a4 a5 =>
          obtain ⟨l, hl'⟩ := ((drive_out hl dat tol htol rec h0) (dat.length - (i' + 1)) (i' + 1) q le_rfl
            (Or.inr ⟨a3, a4, a5⟩)).1 (by omega) a3
          rw [hl']
          simp
        | over _ _ a0 a1 a2 a3 => omega
      · simp
  · rw [drive, if_neg hc]
    simp only [reduceCtorEq, false_iff, not_and]
    rintro - ⟨hn, ⟨rfl, f, f0, f1, -⟩ | ⟨⟨k, k0, k1, k2⟩, -⟩⟩
    · omega
    · have := k2.1; omega

end Cycle

end Ocb
