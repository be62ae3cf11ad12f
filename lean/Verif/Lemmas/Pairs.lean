import Verif.Model.Pairs
import Verif.Lemmas.Basic
import Verif.Lemmas.Drive

/-! # Lemmas about the pairing of `DualBoundary` -/

set_option autoImplicit false

namespace Ocb.Cycle

theorem pyIdx_eq {α : Type*} {l : List α} {k : ℤ} {a : α} (h0 : 0 ≤ k) (h : l[k.toNat]? = some a) : pyIdx l k = .ok a := by
  unfold pyIdx pyGet
  rw [if_pos h0, h]

theorem pyIdx_inv {α : Type*} {l : List α} {k : ℤ} {a : α} (h0 : 0 ≤ k) (h : pyIdx l k = .ok a) : l[k.toNat]? = some a := by
  unfold pyIdx pyGet at h
  rw [if_pos h0] at h
  split at h
  · rename_i h'; simp at h; rw [h', h]
  · simp at h

theorem pairLoop_out (eab : Bnd) (hb : eab.WF) (mn mx : Option (Fl ℚ)) (kw : List Criterion) (dat : List ℤ) (tol : ℤ)
    (htol : 0 ≤ tol) (iocb : ℕ) (rec : ℤ) (h0 : rec = -1 ∨ (0 ≤ rec ∧ (rec < eab.records → Selected eab mn mx kw rec))) :
    ∃ l, pairLoop eab mn mx kw dat tol iocb rec = .ok l ∧
      (∀ p ∈ l, iocb ≤ p.1 ∧ p.1 < dat.length ∧ rec ≤ p.2 ∧ 0 ≤ p.2 ∧ p.2 < eab.records ∧
        Selected eab mn mx kw p.2 ∧ |tm eab.dtime p.2 - tm dat p.1| ≤ tol) ∧
      l.Pairwise (fun p q => p.1 ≤ q.1 ∧ p.2 < q.2) ∧
      (l = [] → dat.Pairwise (· ≤ ·) → NondecOn eab.dtime (Cand (Selected eab mn mx kw) rec) →
        ∀ j : ℕ, iocb ≤ j → j < dat.length → ∀ k, 0 ≤ k → k < eab.records → Cand (Selected eab mn mx kw) rec k →
          tol < |tm eab.dtime k - tm dat j|) := by
  have hl : Lawful (eab.cycler mn mx kw) (Selected eab mn mx kw) := bnd_lawful eab hb mn mx kw
  have hrecs : (eab.cycler mn mx kw).records = eab.records := rfl
  generalize hmm : (eab.records - rec).toNat = m
  induction m using Nat.strong_induction_on generalizing rec iocb with
  | _ m ih =>
    by_cases hrec : rec < eab.records
    · obtain ⟨out, q, e, hm⟩ := matchData_out hl rec dat iocb tol (by omega) htol
      have hB : IsBoundary (eab.cycler mn mx kw) (Selected eab mn mx kw) := .ocb eab mn mx kw hb
      rw [pairLoop, dif_pos hrec]
      have hnext : ∀ r, -1 ≤ r → r < eab.records → ∃ r', getNext eab mn mx kw r = .ok r' ∧ r < r' ∧
          (r' < eab.records → Selected eab mn mx kw r') := by
        intro r hr0 hr1
        obtain ⟨r', e', h1, -, -, h2⟩ := hl.next_ok r hr0 hr1
        exact ⟨r', e', h1, h2⟩
      split
      · simp_all
      · rename_i r' h
        rw [e] at h
        obtain ⟨rfl, rfl⟩ : out = none ∧ q = r' := by simpa using h
        have hno : dat.Pairwise (· ≤ ·) → NondecOn eab.dtime (Cand (Selected eab mn mx kw) rec) →
            ∀ j : ℕ, iocb ≤ j → j < dat.length → ∀ k, 0 ≤ k → k < eab.records →
            Cand (Selected eab mn mx kw) rec k → tol < |tm eab.dtime k - tm dat j| := by
          intro hD hN j hj hjl k hk0 hk1 hk
          cases hm with
          | early _ a0 a1 a2 a3 a4 a5 =>
            have h1 := a5 j hj hjl
            have h2 : q ≤ k := by
              rcases hk.2 with h | h
              · omega
              · by_contra hc'
                exact a4 k hk0 (by omega) h
            have h3 : tm eab.dtime q ≤ tm eab.dtime k := nondec_tm hN q k a1 h2 hk1 ⟨by omega, Or.inr a3⟩ hk
            have h4 := le_abs_self (tm eab.dtime k - tm dat j)
            have h5 : tm (eab.cycler mn mx kw).times q = tm eab.dtime q := rfl
            omega
          | late _ a0 a1 a2 an ae a3 =>
            have h1 : tm eab.dtime k < tm dat 0 - tol := a3 k hk0 hk1 hk
            have h2 := pairwise_tm hD 0 j (by omega) hjl
            have h3 := neg_le_abs (tm eab.dtime k - tm dat j)
            push_cast at h2
            omega
        split
        · rename_i hlt
          have hq0 : -1 ≤ q := by
            have := matchData_rec_ge (bnd_next_gt eab mn mx kw) _ _ _ _ _ _ e
            omega
          obtain ⟨r', e', -, -⟩ := hnext q hq0 hlt
          rw [e']
          exact ⟨[], rfl, by simp, by simp, fun _ => hno⟩
        · exact ⟨[], rfl, by simp, by simp, fun _ => hno⟩
      · rename_i i r' h
        rw [e] at h
        obtain ⟨rfl, rfl⟩ : out = some i ∧ q = r' := by simpa using h
        cases hm with
        | hit _ _ a1 a2 a3 a4 a5 a6 a7 a8 =>
          rw [hrecs] at a4
          have hsel : Selected eab mn mx kw q := by
            rcases a5.2 with h | h
            · rcases h0 with h0 | h0
              · omega
              · rw [h]; exact h0.2 hrec
            · exact h
          obtain ⟨r'', en, n1, n2⟩ := hnext q (by omega) a4
          obtain ⟨l, el, p1, p2, -⟩ := ih (eab.records - r'').toNat (by have := a5.1; omega) i r''
            (Or.inr ⟨by omega, n2⟩) rfl
          rw [dif_pos ⟨a2, a4⟩]
          split
          · simp_all
          · rename_i h
            rw [en] at h
            obtain rfl : r'' = _ := by simpa using h
            rw [el]
            refine ⟨_, rfl, ?_, ?_, by simp⟩
            · intro p hp
              rcases List.mem_cons.1 hp with rfl | hp
              · exact ⟨a1, a2, a5.1, a3, a4, hsel, a6⟩
              · obtain ⟨x1, x2, x3, x4, x5, x6, x7⟩ := p1 p hp
                exact ⟨by omega, x2, by have := a5.1; omega, x4, x5, x6, x7⟩
            · refine List.pairwise_cons.2 ⟨?_, p2⟩
              intro p hp
              obtain ⟨x1, x2, x3, -⟩ := p1 p hp
              exact ⟨x1, by simp only; omega⟩
        | over _ _ a0 a1 a2 a3 =>
          rw [hrecs] at a2
          rw [dif_neg (by omega)]
          split
          · rename_i hlt
            obtain ⟨r', e', -, -⟩ := hnext q (by omega) hlt
            rw [e']
            exact ⟨[], rfl, by simp, by simp, fun _ hD hN => a3 hD hN⟩
          · exact ⟨[], rfl, by simp, by simp, fun _ hD hN => a3 hD hN⟩
    · rw [pairLoop, dif_neg hrec]
      exact ⟨[], rfl, by simp, by simp, fun _ _ _ j _ _ k _ h1 h2 => by have := h2.1; omega⟩

end Ocb.Cycle
