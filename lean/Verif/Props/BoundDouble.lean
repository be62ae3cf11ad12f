import Verif.Props.CoordDouble
import Verif.Props.Correction
import Verif.Model.BoundDouble

/-!
# C198 to C200: radius corrections and boundary latitudes in double precision
-/

set_option autoImplicit false

namespace Ocb.Dbl

open Ocb.Coord Ocb.Corr

/-! ### C198: the corrections -/

/-- What is assumed of numpy's cosine and sine for the corrections, whose angles go up to three turns and more: two units of
the last place of numbers below one, up to 32. -/
structure Lib.Wide (L : Lib) : Prop where
  cos : ∀ x, |x| ≤ 32 → |L.cos x - Real.cos x| ≤ 1 / 2 ^ 52
  sin : ∀ x, |x| ≤ 32 → |L.sin x - Real.sin x| ≤ 1 / 2 ^ 52

/-- What the proofs use of cosine and sine and their approximations. -/
structure Wave (T T' : ℝ → ℝ) : Prop where
  one : ∀ x, |T x| ≤ 1
  lip : ∀ x y, |T x - T y| ≤ |x - y|
  per : ∀ x (k : ℤ), T (x + k * (2 * Real.pi)) = T x
  err : ∀ x, |x| ≤ 32 → |T' x - T x| ≤ 1 / 2 ^ 52

theorem Lib.Wide.waveCos {L : Lib} (hL : L.Wide) : Wave Real.cos L.cos :=
  ⟨Real.abs_cos_le_one, Real.abs_cos_sub_cos_le, Real.cos_add_int_mul_two_pi, hL.cos⟩

theorem Lib.Wide.waveSin {L : Lib} (hL : L.Wide) : Wave Real.sin L.sin :=
  ⟨Real.abs_sin_le_one, Real.abs_sin_sub_sin_le, Real.sin_add_int_mul_two_pi, hL.sin⟩

section Corrections

variable {r : ℝ → ℝ} (hr : Nearest r)

include hr

theorem err4 {x : ℝ} (h : |x| ≤ 4) : |r x - x| ≤ 1 / 2 ^ 52 := by
  have := hr.err (x := x) (e := -51) (by norm_num) (by norm_num; linarith)
  norm_num at this ⊢
  exact this

theorem err16 {x : ℝ} (h : |x| ≤ 16) : |r x - x| ≤ 1 / 2 ^ 50 := by
  have := hr.err (x := x) (e := -49) (by norm_num) (by norm_num; linarith)
  norm_num at this ⊢
  exact this

theorem err32 {x : ℝ} (h : |x| ≤ 32) : |r x - x| ≤ 1 / 2 ^ 49 := by
  have := hr.err (x := x) (e := -48) (by norm_num) (by norm_num; linarith)
  norm_num at this ⊢
  exact this

/-- An angle of the local time with a phase. -/
theorem phase_err' {x X p p' : ℝ} (x0 : 0 ≤ x) (x1 : x ≤ 2 * piD) (hx : |x - X| ≤ 2 ^ (-46 : ℤ)) (hp : |p| ≤ 4)
    (e1 : |p' - p| ≤ 1 / 2 ^ 52) : |r (x + p') - (X + p)| ≤ 9 / 8 / 2 ^ 46 ∧ |r (x + p')| ≤ 43 / 4 - 1 / 8 := by
  have p1 : piD < 3.15 := by unfold piD; norm_num
  obtain ⟨e1a, e1b⟩ := abs_le.1 e1
  obtain ⟨pa, pb⟩ := abs_le.1 hp
  obtain ⟨ha, hb⟩ := abs_le.1 hx
  norm_num at e1a e1b p1 ha hb
  have e2 := err16 hr (x := x + p') (abs_le.2 ⟨by linarith, by linarith⟩)
  obtain ⟨e2a, e2b⟩ := abs_le.1 e2
  norm_num at e2a e2b
  constructor
  · rw [abs_le]; norm_num; constructor <;> linarith
  · rw [abs_le]; norm_num; constructor <;> linarith

theorem phase_err {x X p : ℝ} (x0 : 0 ≤ x) (x1 : x ≤ 2 * piD) (hx : |x - X| ≤ 2 ^ (-46 : ℤ)) (hp : |p| ≤ 4) :
    |r (x + r p) - (X + p)| ≤ 9 / 8 / 2 ^ 46 ∧ |r (x + r p)| ≤ 43 / 4 - 1 / 8 :=
  phase_err' hr x0 x1 hx hp (err4 hr hp)

/-- One term of the harmonic series: `n` times the angle, rounded, then the product. -/
theorem term_err {T T' : ℝ → ℝ} (hT : Wave T T') {c Z z' : ℝ} (k : ℤ) (hc : |c| ≤ 4) (hz : |z'| ≤ 32)
    (he : |z' - (Z + k * (2 * Real.pi))| ≤ 7 / 2 / 2 ^ 46) :
    |r (r c * T' z') - c * T Z| ≤ 18 / 5 / 2 ^ 46 * |c| + 1 / 2 ^ 50 ∧ |r (r c * T' z')| ≤ 5 := by
  have t1 : |T' z' - T Z| ≤ 57 / 16 / 2 ^ 46 := by
    have a := hT.err z' hz
    have b := hT.lip z' (Z + k * (2 * Real.pi))
    rw [hT.per] at b
    have := abs_sub_le (T' z') (T z') (T Z)
    norm_num at a b he ⊢
    linarith
  have e1 := err4 hr hc
  have t2 : |r c * T' z' - c * T Z| ≤ 57 / 16 / 2 ^ 46 * |c| + 9 / 8 / 2 ^ 52 := by
    have e : r c * T' z' - c * T Z = c * (T' z' - T Z) + (r c - c) * (T Z + (T' z' - T Z)) := by ring
    rw [e]
    refine (abs_add_le _ _).trans (add_le_add ?_ ?_)
    · rw [abs_mul, mul_comm]
      exact mul_le_mul_of_nonneg_right t1 (abs_nonneg _)
    · rw [abs_mul]
      have h1 : |T Z + (T' z' - T Z)| ≤ 9 / 8 := by
        have := abs_add_le (T Z) (T' z' - T Z)
        have := hT.one Z
        norm_num at t1
        linarith
      calc _ ≤ (1 / 2 ^ 52 : ℝ) * (9 / 8) := mul_le_mul e1 h1 (abs_nonneg _) (by norm_num)
        _ = _ := by ring
  have t3 : |c * T Z| ≤ 4 := by
    rw [abs_mul]
    calc _ ≤ (4 : ℝ) * 1 := mul_le_mul hc (hT.one _) (abs_nonneg _) (by norm_num)
      _ = 4 := by norm_num
  have t4 : |r c * T' z'| ≤ 8 := by
    have := abs_sub_abs_le_abs_sub (r c * T' z') (c * T Z)
    norm_num at t2
    linarith
  have e2 := hr.err (x := r c * T' z') (e := -50) (by norm_num) (t4.trans (by norm_num))
  have e3 := abs_sub_le (r (r c * T' z')) (r c * T' z') (c * T Z)
  have e4 := abs_sub_abs_le_abs_sub (r (r c * T' z')) (c * T Z)
  have c0 := abs_nonneg c
  norm_num at e2 t2 ⊢
  constructor <;> linarith

/-- The next partial sum. -/
theorem sum_err {s S t U a b : ℝ} (hs : |s - S| ≤ a) (ht : |t - U| ≤ b) (hS : |S + U| ≤ 12) (ha : a + b ≤ 1) :
    |r (s + t) - (S + U)| ≤ a + b + 1 / 2 ^ 50 := by
  have h1 : |s + t - (S + U)| ≤ a + b := by
    rw [show s + t - (S + U) = (s - S) + (t - U) by ring]
    exact (abs_add_le _ _).trans (add_le_add hs ht)
  have h2 : |s + t| ≤ 16 := by
    have := abs_sub_abs_le_abs_sub (s + t) (S + U)
    linarith
  have := abs_sub_le (r (s + t)) (s + t) (S + U)
  linarith [err16 hr h2]

end Corrections

/-- The tables of coefficients: the mean, the sum of the amplitudes and the phases are bounded. -/
def HarmSmall (c : ℝ × (ℝ × ℝ) × (ℝ × ℝ) × (ℝ × ℝ) × (ℝ × ℝ) × (ℝ × ℝ) × (ℝ × ℝ)) : Prop :=
  match c with
  | (c0, (c1, p1), (c2, p2), (c3, p3), (c4, p4), (c5, p5), (c6, p6)) =>
    |c0| ≤ 4 ∧ |c1| + |c2| + |c3| + |c4| + |c5| + |c6| ≤ 7 ∧ (|c1| ≤ 4 ∧ |c2| ≤ 4 ∧ |c3| ≤ 4 ∧ |c4| ≤ 4 ∧ |c5| ≤ 4 ∧ |c6| ≤ 4) ∧
      |p1| ≤ 4 ∧ |p2| ≤ 4 ∧ |p3| ≤ 4 ∧ |p4| ≤ 4 ∧ |p5| ≤ 4 ∧ |p6| ≤ 4

theorem harmCoeff_small {i m : String} {c} (h : harmCoeff i m = some c) : HarmSmall c := by
  unfold harmCoeff at h
  split_ifs at h <;> (injection h with h; subst h; unfold HarmSmall; norm_num [abs_of_pos, abs_of_neg])

section Harmonic

variable {r : ℝ → ℝ} (hr : Nearest r) {L : Lib} (hL : L.Wide)

include hr hL

theorem harm_err {c} (hc : HarmSmall c) {x X : ℝ} (x0 : 0 ≤ x) (x1 : x ≤ 2 * piD) (k : ℤ)
    (hx : |x - (X + k * (2 * Real.pi))| ≤ 2 ^ (-46 : ℤ)) : |harmFormulaD r L c x - harmFormula c X| ≤ 32 / 2 ^ 46 := by
  obtain ⟨c0, ⟨c1, p1⟩, ⟨c2, p2⟩, ⟨c3, p3⟩, ⟨c4, p4⟩, ⟨c5, p5⟩, ⟨c6, p6⟩⟩ := c
  obtain ⟨m, am, ⟨a1, a2, a3, a4, a5, a6⟩, b1, b2, b3, b4, b5, b6⟩ := hc
  have one : ∀ {T T' : ℝ → ℝ}, Wave T T' → ∀ {c p : ℝ}, |c| ≤ 4 → |p| ≤ 4 →
      |r (r c * T' (r (x + r p))) - c * T (X + p)| ≤ 18 / 5 / 2 ^ 46 * |c| + 1 / 2 ^ 50 := by
    intro T T' hT c p hc hp
    obtain ⟨h1, h2⟩ := phase_err hr x0 x1 hx hp
    refine (term_err hr hT k hc (h2.trans (by norm_num)) ?_).1
    rw [show X + p + k * (2 * Real.pi) = X + k * (2 * Real.pi) + p by ring]
    exact h1.trans (by norm_num)
  have more : ∀ {T T' : ℝ → ℝ}, Wave T T' → ∀ (n : ℤ), 2 ≤ n → n ≤ 3 → ∀ {c p : ℝ}, |c| ≤ 4 → |p| ≤ 4 →
      |r (r c * T' (r (n * r (x + r p)))) - c * T (n * (X + p))| ≤ 18 / 5 / 2 ^ 46 * |c| + 1 / 2 ^ 50 := by
    intro T T' hT n hn hn' c p hc hp
    obtain ⟨h1, h2⟩ := phase_err hr x0 x1 hx hp
    have n2 : (2 : ℝ) ≤ n := by exact_mod_cast hn
    have n3 : (n : ℝ) ≤ 3 := by exact_mod_cast hn'
    have h3 : |(n : ℝ) * r (x + r p)| ≤ 32 - 1 / 8 := by
      rw [abs_mul, abs_of_pos (by linarith)]
      calc _ ≤ (3 : ℝ) * (43 / 4 - 1 / 8) := mul_le_mul n3 h2 (abs_nonneg _) (by norm_num)
        _ ≤ _ := by norm_num
    have h4 := err32 hr (h3.trans (by norm_num))
    have h5 : |(n : ℝ) * r (x + r p) - (n * (X + p) + (n * k : ℤ) * (2 * Real.pi))| ≤ 3 * (9 / 8 / 2 ^ 46) := by
      have e : (n : ℝ) * r (x + r p) - (n * (X + p) + (n * k : ℤ) * (2 * Real.pi)) =
          n * (r (x + r p) - (X + k * (2 * Real.pi) + p)) := by push_cast; ring
      rw [e, abs_mul, abs_of_pos (by linarith : (0 : ℝ) < n)]
      exact mul_le_mul n3 h1 (abs_nonneg _) (by norm_num)
    have h6 := abs_sub_le (r (n * r (x + r p))) (n * r (x + r p)) (n * (X + p) + (n * k : ℤ) * (2 * Real.pi))
    have h7 := abs_sub_abs_le_abs_sub (r (n * r (x + r p))) (n * r (x + r p))
    refine (term_err hr hT (n * k) hc ?_ ?_).1
    · norm_num at h4; linarith
    · norm_num at h4 h5 h6 ⊢; linarith
  have e1 := one hL.waveCos a1 b1
  have e2 := one hL.waveSin a2 b2
  have e3 := more hL.waveCos 2 (by norm_num) (by norm_num) a3 b3
  have e4 := more hL.waveSin 2 (by norm_num) (by norm_num) a4 b4
  have e5 := more hL.waveCos 3 (by norm_num) (by norm_num) a5 b5
  have e6 := more hL.waveSin 3 (by norm_num) (by norm_num) a6 b6
  have f1 := mul_cos_le c1 (X + p1)
  have f2 := mul_sin_le c2 (X + p2)
  have f3 := mul_cos_le c3 ((2 : ℤ) * (X + p3))
  have f4 := mul_sin_le c4 ((2 : ℤ) * (X + p4))
  have f5 := mul_cos_le c5 ((3 : ℤ) * (X + p5))
  have f6 := mul_sin_le c6 ((3 : ℤ) * (X + p6))
  have e0 := err4 hr m
  unfold harmFormulaD harmFormula
  dsimp only
  push_cast at e3 e4 e5 e6 f3 f4 f5 f6
  generalize c1 * Real.cos (X + p1) = U1 at *
  generalize c2 * Real.sin (X + p2) = U2 at *
  generalize c3 * Real.cos (2 * (X + p3)) = U3 at *
  generalize c4 * Real.sin (2 * (X + p4)) = U4 at *
  generalize c5 * Real.cos (3 * (X + p5)) = U5 at *
  generalize c6 * Real.sin (3 * (X + p6)) = U6 at *
  have n1 := abs_nonneg c1
  have n2 := abs_nonneg c2
  have n3 := abs_nonneg c3
  have n4 := abs_nonneg c4
  have n5 := abs_nonneg c5
  have n6 := abs_nonneg c6
  have q0 := abs_le.1 m
  have q1 := abs_le.1 f1
  have q2 := abs_le.1 f2
  have q3 := abs_le.1 f3
  have q4 := abs_le.1 f4
  have q5 := abs_le.1 f5
  have q6 := abs_le.1 f6
  have s1 := sum_err hr e0 e1 (abs_le.2 ⟨by linarith, by linarith⟩) (by norm_num; linarith)
  have s2 := sum_err hr s1 e2 (abs_le.2 ⟨by linarith, by linarith⟩) (by norm_num; linarith)
  have s3 := sum_err hr s2 e3 (abs_le.2 ⟨by linarith, by linarith⟩) (by norm_num; linarith)
  have s4 := sum_err hr s3 e4 (abs_le.2 ⟨by linarith, by linarith⟩) (by norm_num; linarith)
  have s5 := sum_err hr s4 e5 (abs_le.2 ⟨by linarith, by linarith⟩) (by norm_num; linarith)
  have s6 := sum_err hr s5 e6 (abs_le.2 ⟨by linarith, by linarith⟩) (by norm_num; linarith)
  rw [neg_sub_neg, abs_sub_comm]
  refine s6.trans ?_
  norm_num
  linarith

/-- C198: `harmonic` in double precision refuses what it refuses in exact arithmetic, and otherwise has one result, within
`32 / 2 ^ 46` degrees of the exact correction. -/
theorem C198_harmonic (lower : String → String) {mlt : ℝ} (hm : |mlt| ≤ 48) (i m : String) :
    (harmonic lower mlt i m = .error .valueError ∧ ∀ o, HarmonicD r L lower mlt i m o ↔ o = .error .valueError) ∨
    ∃ v v', harmonic lower mlt i m = .ok v ∧ (∀ o, HarmonicD r L lower mlt i m o ↔ o = .ok v') ∧ |v' - v| ≤ 32 / 2 ^ 46 := by
  cases hc : harmCoeff (lower i) (lower m) with
  | none =>
    refine .inl ⟨?_, fun o => ?_⟩
    · unfold harmonic; rw [hc]
    · unfold HarmonicD; rw [hc]
  | some c =>
    obtain ⟨x, t1, x0, x1, -, k, hk⟩ := C153_full hr hm
    refine .inr ⟨_, harmFormulaD r L c x, harmonic_eq lower mlt i m c hc, fun o => ?_,
      harm_err hr hL (harmCoeff_small hc) x0 x1 k hk⟩
    unfold HarmonicD
    rw [hc]
    constructor
    · rintro ⟨x', u, rfl⟩
      have := (t1 _).1 u
      injection this with this
      rw [this]
    · rintro rfl
      exact ⟨x, (t1 _).2 rfl, rfl⟩

omit hr hL in
theorem ell_quot {n N d U : ℝ} (N0 : 2 ≤ N) (N1 : N ≤ 27 / 8) (hU1 : U ≤ 11 / 20) (hU2 : -(11 / 20) ≤ U)
    (g1 : |n - N| ≤ 27 / 2 ^ 52) (g2 : |d - (1 + U)| ≤ 21 / 10 / 2 ^ 46) : |n / d - N / (1 + U)| ≤ 40 / 2 ^ 46 := by
  have D0 : (9 / 20 : ℝ) ≤ 1 + U := by linarith
  have D1 : 1 + U ≤ 2 := by linarith
  have d0 : (449 / 1000 : ℝ) ≤ d := by
    have := (abs_le.1 g2).1
    norm_num at this
    linarith
  generalize 1 + U = D at *
  have D00 : 0 < D := by linarith
  have d00 : 0 < d := by linarith
  rw [div_sub_div _ _ d00.ne' D00.ne', abs_div, abs_of_pos (mul_pos d00 D00), div_le_iff₀ (mul_pos d00 D00)]
  have g : (449 / 1000 : ℝ) * (9 / 20) ≤ d * D := mul_le_mul d0 D0 (by norm_num) d00.le
  rw [show n * D - d * N = (n - N) * D - N * (d - D) by ring]
  calc _ ≤ |n - N| * |D| + |N| * |d - D| := by rw [← abs_mul, ← abs_mul]; exact abs_sub _ _
    _ ≤ 27 / 2 ^ 52 * 2 + 27 / 8 * (21 / 10 / 2 ^ 46) :=
        add_le_add (mul_le_mul g1 (by rw [abs_of_pos D00]; exact D1) (abs_nonneg _) (by norm_num))
          (mul_le_mul (by rw [abs_of_pos (by linarith)]; exact N1) g2 (abs_nonneg _) (by norm_num))
    _ ≤ 40 / 2 ^ 46 * (449 / 1000 * (9 / 20)) := by norm_num
    _ ≤ _ := mul_le_mul_of_nonneg_left g (by norm_num)

omit hL in
theorem ell_num {a e : ℝ} (a0 : 4 ≤ a) (a1 : a ≤ 4.5) (e0 : 0.5 ≤ e) (e1 : e ≤ 0.55) :
    |r (r a * r (1 - r (r e ^ 2))) - a * (1 - e ^ 2)| ≤ 27 / 2 ^ 52 ∧ 2 ≤ a * (1 - e ^ 2) ∧ a * (1 - e ^ 2) ≤ 27 / 8 := by
  have q1 := err4 hr (x := e) (by rw [abs_le]; constructor <;> linarith)
  obtain ⟨q1a, q1b⟩ := abs_le.1 q1
  norm_num at q1a q1b e0 e1 a1
  generalize r e = e' at *
  have q2 : |e' ^ 2 - e ^ 2| ≤ 2 / 2 ^ 52 := by
    rw [show e' ^ 2 - e ^ 2 = (e' - e) * (e' + e) by ring, abs_mul]
    have : |e' + e| ≤ 2 := by rw [abs_le]; constructor <;> linarith
    calc _ ≤ (1 / 2 ^ 52 : ℝ) * 2 := mul_le_mul q1 this (abs_nonneg _) (by norm_num)
      _ = _ := by norm_num
  obtain ⟨q2a, q2b⟩ := abs_le.1 q2
  norm_num at q2a q2b
  have e2a : e ^ 2 ≤ 121 / 400 := by nlinarith
  have e2b : 1 / 4 ≤ e ^ 2 := by nlinarith
  have q3 := err4 hr (x := e' ^ 2) (by rw [abs_le]; constructor <;> linarith)
  obtain ⟨q3a, q3b⟩ := abs_le.1 q3
  norm_num at q3a q3b
  generalize r (e' ^ 2) = f at *
  have q4 := err4 hr (x := 1 - f) (by rw [abs_le]; constructor <;> linarith)
  obtain ⟨q4a, q4b⟩ := abs_le.1 q4
  norm_num at q4a q4b
  generalize r (1 - f) = w at *
  have q5 := err16 hr (x := a) (by rw [abs_le]; constructor <;> linarith)
  obtain ⟨q5a, q5b⟩ := abs_le.1 q5
  norm_num at q5a q5b
  generalize r a = a' at *
  have q6 : |a' * w - a * (1 - e ^ 2)| ≤ 26 / 2 ^ 52 := by
    rw [show a' * w - a * (1 - e ^ 2) = a' * (w - (1 - e ^ 2)) + (a' - a) * (1 - e ^ 2) by ring]
    have g1 : |w - (1 - e ^ 2)| ≤ 4 / 2 ^ 52 := by rw [abs_le]; norm_num; constructor <;> linarith
    have g2 : |a'| ≤ 5 := by rw [abs_le]; constructor <;> linarith
    have g3 : |1 - e ^ 2| ≤ 1 := by rw [abs_le]; constructor <;> linarith
    calc _ ≤ |a'| * |w - (1 - e ^ 2)| + |a' - a| * |1 - e ^ 2| := by
          rw [← abs_mul, ← abs_mul]; exact abs_add_le _ _
      _ ≤ 5 * (4 / 2 ^ 52) + 1 / 2 ^ 50 * 1 :=
          add_le_add (mul_le_mul g2 g1 (abs_nonneg _) (by norm_num)) (mul_le_mul q5 g3 (abs_nonneg _) (by norm_num))
      _ ≤ _ := by norm_num
  have N0 : 2 ≤ a * (1 - e ^ 2) := by nlinarith
  have N1 : a * (1 - e ^ 2) ≤ 27 / 8 := by nlinarith
  refine ⟨?_, N0, N1⟩
  generalize a * (1 - e ^ 2) = N at *
  obtain ⟨q6a, q6b⟩ := abs_le.1 q6
  norm_num at q6a q6b
  have q7 := err4 hr (x := a' * w) (by rw [abs_le]; constructor <;> linarith)
  obtain ⟨q7a, q7b⟩ := abs_le.1 q7
  norm_num at q7a q7b
  rw [abs_le]; norm_num; constructor <;> linarith

/-- The ellipse for coefficients like those of the tables. -/
theorem ell_err {a e t : ℝ} (a0 : 4 ≤ a) (a1 : a ≤ 4.5) (e0 : 0.5 ≤ e) (e1 : e ≤ 0.55) (ht : |t| ≤ 1) {x X : ℝ} (x0 : 0 ≤ x)
    (x1 : x ≤ 2 * piD) (k : ℤ) (hx : |x - (X + k * (2 * Real.pi))| ≤ 2 ^ (-46 : ℤ)) :
    |ellFormulaD r L a e t x - ellFormula a e t X| ≤ 41 / 2 ^ 46 := by
  have t1 : |-r t - -t| ≤ 1 / 2 ^ 52 := by
    rw [neg_sub_neg, abs_sub_comm]; exact err4 hr (ht.trans (by norm_num))
  obtain ⟨h1, h2⟩ := phase_err' hr x0 x1 hx (p := -t) (by rw [abs_neg]; linarith) t1
  rw [← sub_eq_add_neg] at h1 h2
  have h3 := (term_err hr hL.waveCos (c := e) (Z := X - t) k (by rw [abs_le]; constructor <;> linarith) (h2.trans (by norm_num))
    (by
      rw [show X - t + k * (2 * Real.pi) = X + k * (2 * Real.pi) + -t by ring]
      exact h1.trans (by norm_num))).1
  rw [abs_of_pos (by linarith : (0 : ℝ) < e)] at h3
  have c1 := Real.cos_le_one (X - t)
  have c2 := Real.neg_one_le_cos (X - t)
  unfold ellFormulaD ellFormula
  generalize r (r e * L.cos (r (x - r t))) = u at *
  have hU1 : e * Real.cos (X - t) ≤ 0.55 := by nlinarith
  have hU2 : -0.55 ≤ e * Real.cos (X - t) := by nlinarith
  generalize e * Real.cos (X - t) = U at *
  obtain ⟨g1, N0, N1⟩ := ell_num hr a0 a1 e0 e1
  generalize a * (1 - e ^ 2) = N at *
  generalize r (r a * r (1 - r (r e ^ 2))) = n at *
  norm_num at e0 e1 a1 hU1 hU2
  obtain ⟨h3a, h3b⟩ := abs_le.1 h3
  norm_num at h3a h3b
  have q8 := err4 hr (x := 1 + u) (by rw [abs_le]; constructor <;> linarith)
  obtain ⟨q8a, q8b⟩ := abs_le.1 q8
  norm_num at q8a q8b
  generalize r (1 + u) = d at *
  have D0 : (0 : ℝ) < 1 + U := by linarith
  have d0 : (0 : ℝ) < d := by linarith
  have q9 := ell_quot N0 N1 hU1 hU2 (n := n) (d := d) g1 (by rw [abs_le]; norm_num; constructor <;> linarith)
  have M1 : |N / (1 + U)| ≤ 8 := by
    rw [abs_div, abs_of_pos D0, div_le_iff₀ D0, abs_of_pos (by linarith)]; linarith
  have q10 := err16 hr (x := n / d) (by
    have := abs_sub_abs_le_abs_sub (n / d) (N / (1 + U))
    norm_num at q9
    linarith)
  have := abs_sub_le (r (n / d)) (n / d) (N / (1 + U))
  rw [neg_sub_neg, abs_sub_comm]
  norm_num at q9 q10 ⊢
  linarith

/-- C198: `elliptical` in double precision refuses what it refuses in exact arithmetic, and otherwise has one result, within
`41 / 2 ^ 46` degrees of the exact correction. -/
theorem C198_elliptical (lower : String → String) {mlt : ℝ} (hm : |mlt| ≤ 48) (i m : String) :
    (elliptical lower mlt i m = .error .valueError ∧ ∀ o, EllipticalD r L lower mlt i m o ↔ o = .error .valueError) ∨
    ∃ v v', elliptical lower mlt i m = .ok v ∧ (∀ o, EllipticalD r L lower mlt i m o ↔ o = .ok v') ∧
      |v' - v| ≤ 41 / 2 ^ 46 := by
  by_cases hi : lower i = "ampere"
  · cases hc : ellCoeff (lower m) with
    | none =>
      refine .inl ⟨?_, fun o => ?_⟩
      · unfold elliptical; rw [if_neg (by simpa using hi), hc]
      · unfold EllipticalD; rw [if_neg (by simpa using hi), hc]
    | some c =>
      obtain ⟨a, e, t⟩ := c
      obtain ⟨x, t1, x0, x1, -, k, hk⟩ := C153_full hr hm
      have hb : 4 ≤ a ∧ a ≤ 4.5 ∧ 0.5 ≤ e ∧ e ≤ 0.55 ∧ |t| ≤ 1 := by
        unfold ellCoeff at hc
        split_ifs at hc <;> (injection hc with hc; obtain ⟨rfl, rfl, rfl⟩ := by simpa using hc) <;>
          norm_num [abs_of_neg]
      refine .inr ⟨_, ellFormulaD r L a e t x, elliptical_eq lower mlt i m a e t hi hc, fun o => ?_,
        ell_err hr hL hb.1 hb.2.1 hb.2.2.1 hb.2.2.2.1 hb.2.2.2.2 x0 x1 k hk⟩
      unfold EllipticalD
      rw [if_neg (by simpa using hi), hc]
      constructor
      · rintro ⟨x', u, rfl⟩
        have := (t1 _).1 u
        injection this with this
        rw [this]
      · rintro rfl
        exact ⟨x, (t1 _).2 rfl, rfl⟩
  · refine .inl ⟨?_, fun o => ?_⟩
    · unfold elliptical; rw [if_pos hi]
    · unfold EllipticalD; rw [if_pos hi]

end Harmonic

/-! ### C199: boundary latitudes -/

/-- The records for which the bounds on boundary latitudes hold, `R` the corrected radius: centre within 90 degrees of the
pole, angle within a turn, radius up to 128 degrees. -/
structure Mild (B : Rec) (R : ℝ) : Prop where
  phi : |B.phiCent| ≤ 360
  cent : |B.rCent| ≤ 90
  pos : 0 ≤ R
  le : R ≤ 128

/-- The angle between the meridian and the direction of the centre. -/
noncomputable def gap (B : Rec) (mlt : ℝ) : ℝ := hourAngle mlt - B.phiCent * Real.pi / 180

/-- The square of half of the chord that the boundary circle cuts off the line of the meridian; negative if the line
passes by the circle. -/
noncomputable def halfChord2 (B : Rec) (mlt : ℝ) : ℝ := (B.r + B.rf mlt) ^ 2 - (B.rCent * Real.sin (gap B mlt)) ^ 2

/-- The distance from the pole of the farther crossing of line and circle. -/
noncomputable def farCross (B : Rec) (mlt : ℝ) : ℝ := B.rCent * Real.cos (gap B mlt) + √(halfChord2 B mlt)

theorem abs_of_hem {h x : ℝ} (hh : h = 1 ∨ h = -1) : |h * x| = |x| := by
  rcases hh with rfl | rfl <;> simp

section Bound

variable {r : ℝ → ℝ} (hr : Nearest r)

include hr

theorem deg2hr_err {lon : ℝ} (hl : |lon| ≤ 360) : ∃ h, (∀ o, Deg2hr r lon o ↔ o = .ok h) ∧ 0 ≤ h ∧ h ≤ 24 ∧
    ∃ k : ℤ, |h - (lon / 15 + k * 24)| ≤ 1 / 2 ^ 48 := by
  have b3 : |lon / 15| ≤ 24 := by
    rw [abs_div, abs_of_pos (show (0 : ℝ) < 15 by norm_num)]; linarith
  have e1 := err32 hr (b3.trans (by norm_num))
  have v24 : |r (lon / 15)| ≤ 24 := abs_le.2 ⟨hr.dbl_le d24.neg (abs_le.1 b3).1, hr.le_dbl d24 (abs_le.1 b3).2⟩
  have dv := hr.mem (lon / 15)
  generalize hv : r (lon / 15) = v at *
  obtain ⟨w, f1, f2, f3, n, fn⟩ := Ocb.Time.C01_fix_range_in_interval v 0 24 none (by norm_num) (by norm_num) (by norm_num)
  have e2 := err32 hr (x := w) (by rw [abs_of_nonneg f2]; linarith)
  refine ⟨r w, fun o => ?_, hr.nonneg f2, hr.le_dbl d24 f3.le, n, ?_⟩
  · unfold Deg2hr
    rw [hv, fix_hours hr dv (v24.trans (by norm_num)), f1]
    rfl
  · have hw : w = v + n * 24 := by rw [fn]; simp
    have : r w - (lon / 15 + n * 24) = (r w - w) + (v - lon / 15) := by rw [hw]; ring
    rw [this]
    refine (abs_add_le _ _).trans ?_
    norm_num at e1 e2 ⊢
    linarith

/-- The angle that `get_aacgm_boundary_lat` uses. -/
theorem gap_err {B : Rec} {mlt : ℝ} (hp : |B.phiCent| ≤ 360) (hm : |mlt| ≤ 24) :
    ∃ del, (∀ o, (∃ phi, Deg2hr r B.phiCent (.ok phi) ∧ Hr2rad r (r (mlt - phi)) (2 * piD) (.ok o)) ↔ o = del) ∧ |del| ≤ 16 ∧
      ∃ k : ℤ, |del - (gap B mlt + k * (2 * Real.pi))| ≤ 2 / 2 ^ 46 := by
  obtain ⟨phi, u1, p0, p1, j, hj⟩ := deg2hr_err hr hp
  obtain ⟨m0, m1⟩ := abs_le.1 hm
  have d48 : IsDouble 48 := by exact_mod_cast isDouble_nat (n := 48) (by norm_num)
  have s48 : |mlt - phi| ≤ 48 := abs_le.2 ⟨by linarith, by linarith⟩
  have r48 : |r (mlt - phi)| ≤ 48 := abs_le.2 ⟨hr.dbl_le d48.neg (abs_le.1 s48).1, hr.le_dbl d48 (abs_le.1 s48).2⟩
  have e1 := hr.err (x := mlt - phi) (e := -47) (by norm_num) (s48.trans (by norm_num))
  obtain ⟨del, t1, a0, a1, -, k, hk⟩ := C153_full hr r48
  have pi1 := Real.pi_lt_d2
  have pb : piD < 4 := by unfold piD; norm_num
  refine ⟨del, fun o => ?_, by rw [abs_of_nonneg a0]; linarith, k - j, ?_⟩
  · constructor
    · rintro ⟨ph, v1, v2⟩
      have := (u1 _).1 v1
      injection this with this
      rw [this] at v2
      have := (t1 _).1 v2
      injection this
    · rintro rfl
      exact ⟨phi, (u1 _).2 rfl, (t1 _).2 rfl⟩
  · have e : del - (gap B mlt + ((k - j : ℤ) : ℝ) * (2 * Real.pi)) = (del - (r (mlt - phi) * Real.pi / 12 + k * (2 * Real.pi))) +
        Real.pi / 12 * ((r (mlt - phi) - (mlt - phi)) - (phi - (B.phiCent / 15 + j * 24))) := by
      unfold gap hourAngle; push_cast; ring
    rw [e]
    have e2 : |(r (mlt - phi) - (mlt - phi)) - (phi - (B.phiCent / 15 + j * 24))| ≤ 1 / 2 ^ 47 := by
      refine (abs_sub _ _).trans ?_
      norm_num at e1 hj ⊢
      linarith
    have e3 : |Real.pi / 12 * ((r (mlt - phi) - (mlt - phi)) - (phi - (B.phiCent / 15 + j * 24)))| ≤ 1 * (1 / 2 ^ 47) := by
      rw [abs_mul, abs_of_pos (by positivity : 0 < Real.pi / 12)]
      exact mul_le_mul (by norm_num at pi1 ⊢; linarith) e2 (abs_nonneg _) (by norm_num)
    refine (abs_add_le _ _).trans ?_
    norm_num at hk e3 ⊢
    linarith

variable {L : Lib} (hL : L.Ok r)

include hL

/-- Components of the centre along and across the meridian. -/
theorem across_err {T T' : ℝ → ℝ} (hT : Trig T T') {B : Rec} {mlt del : ℝ} (hc : |B.rCent| ≤ 90) (hd : |del| ≤ 16) (k : ℤ)
    (hk : |del - (gap B mlt + k * (2 * Real.pi))| ≤ 2 / 2 ^ 46) :
    |r (B.rCent * T' del) - B.rCent * T (gap B mlt)| ≤ 185 / 2 ^ 46 ∧ |B.rCent * T (gap B mlt)| ≤ 90 := by
  have e1 := hT.err del hd
  have e2 := hT.lip del (gap B mlt + k * (2 * Real.pi))
  rw [hT.per] at e2
  have e3 := abs_sub_le (T' del) (T del) (T (gap B mlt))
  have e4 : |T' del - T (gap B mlt)| ≤ 1 / 2 ^ 52 + 2 / 2 ^ 46 := by linarith
  have := comp_err hr (ρ := B.rCent) (ρ' := B.rCent) (a := 0) hc (by simp) (by norm_num) (hT.one _) e4 (by norm_num)
  refine ⟨this.trans (by norm_num), ?_⟩
  rw [abs_mul]
  calc _ ≤ (90 : ℝ) * 1 := mul_le_mul hc (hT.one _) (abs_nonneg _) (by norm_num)
    _ = 90 := by norm_num

omit hL in
/-- The rounded difference of two squares. -/
theorem disc_err {R y : ℝ} (hR : |R| ≤ 129) (hy : |y| ≤ 91) :
    |r (r (R ^ 2) - r (y ^ 2)) - (R ^ 2 - y ^ 2)| ≤ 400 / 2 ^ 46 ∧
    (0 ≤ r (r (R ^ 2) - r (y ^ 2)) → |r (r (R ^ 2) - r (y ^ 2)) - (R ^ 2 - y ^ 2)| ≤ 7 / 2 / 2 ^ 53 * R ^ 2 + 1 / 2 ^ 220) := by
  have h1 := hr.relAbs (R ^ 2)
  have h2 := hr.relAbs (y ^ 2)
  have h3 := hr.relAbs (r (R ^ 2) - r (y ^ 2))
  rw [abs_of_nonneg (sq_nonneg R)] at h1
  rw [abs_of_nonneg (sq_nonneg y)] at h2
  have q1 : R ^ 2 ≤ 16641 := by
    have := pow_le_pow_left₀ (abs_nonneg R) hR 2
    rw [sq_abs] at this; norm_num at this; exact this
  have q2 : y ^ 2 ≤ 8281 := by
    have := pow_le_pow_left₀ (abs_nonneg y) hy 2
    rw [sq_abs] at this; norm_num at this; exact this
  have q3 := sq_nonneg R
  have q4 := sq_nonneg y
  have η1 : (2 : ℝ) ^ (-1075 : ℤ) ≤ 1 / 2 ^ 230 := (two_le (show (-1075 : ℤ) ≤ -230 by norm_num)).trans (by norm_num)
  have ε0 : (2 : ℝ) ^ (-53 : ℤ) = 1 / 2 ^ 53 := by norm_num
  rw [ε0] at h1 h2 h3
  generalize (2 : ℝ) ^ (-1075 : ℤ) = η at *
  generalize r (r (R ^ 2) - r (y ^ 2)) = d at *
  generalize r (R ^ 2) = A at *
  generalize r (y ^ 2) = Y at *
  generalize R ^ 2 = R2 at *
  generalize y ^ 2 = y2 at *
  obtain ⟨h1a, h1b⟩ := abs_le.1 h1
  obtain ⟨h2a, h2b⟩ := abs_le.1 h2
  obtain ⟨h3a, h3b⟩ := abs_le.1 h3
  norm_num at h1a h1b h2a h2b h3a h3b η1
  constructor
  · have : |A - Y| ≤ 16700 := by rw [abs_le]; constructor <;> linarith
    rw [abs_le]; norm_num; constructor <;> linarith
  · intro hd
    rcases le_total 0 (A - Y) with h | h
    · rw [abs_of_nonneg h] at h3a h3b
      rw [abs_le]; norm_num; constructor <;> linarith
    · rw [abs_of_nonpos h] at h3a h3b
      rw [abs_le]; norm_num; constructor <;> linarith

/-- A root and a leg give back the hypotenuse. -/
theorem hyp_err {R y d : ℝ} (R0 : 0 ≤ R) (hR : R ≤ 129) (hd : 0 ≤ d)
    (he : |d - (R ^ 2 - y ^ 2)| ≤ 7 / 2 / 2 ^ 53 * R ^ 2 + 1 / 2 ^ 220) : |√(L.sqrt d ^ 2 + y ^ 2) - R| ≤ 16 / 2 ^ 46 := by
  have h1 := hr.relAbs (√d)
  rw [abs_of_nonneg (Real.sqrt_nonneg d)] at h1
  rw [hL.sqrt d hd]
  have η1 : (2 : ℝ) ^ (-1075 : ℤ) ≤ 1 / 2 ^ 230 := (two_le (show (-1075 : ℤ) ≤ -230 by norm_num)).trans (by norm_num)
  have ε0 : (2 : ℝ) ^ (-53 : ℤ) = 1 / 2 ^ 53 := by norm_num
  rw [ε0] at h1
  generalize (2 : ℝ) ^ (-1075 : ℤ) = η at *
  have s0 := Real.sqrt_nonneg d
  have ss := Real.sq_sqrt hd
  have q0 := hr.nonneg s0
  obtain ⟨ha, hb⟩ := abs_le.1 he
  have y0 := sq_nonneg y
  have d1 : d ≤ 2 ^ 15 := by
    have : R ^ 2 ≤ 129 ^ 2 := pow_le_pow_left₀ R0 hR 2
    norm_num at this hb ⊢
    linarith
  have s1 : √d ≤ 256 := Real.sqrt_le_iff.2 ⟨by norm_num, d1.trans (by norm_num)⟩
  generalize √d = s at *
  generalize r s = q at *
  have qd : |q ^ 2 - d| ≤ 9 / 4 / 2 ^ 53 * d + 1 / 2 ^ 220 := by
    rw [← ss, show q ^ 2 - s ^ 2 = (q - s) * (2 * s + (q - s)) by ring, abs_mul]
    have g : |2 * s + (q - s)| ≤ 9 / 4 * s + 1 / 2 ^ 230 := by
      refine (abs_add_le _ _).trans ?_
      rw [abs_of_nonneg (by linarith : (0 : ℝ) ≤ 2 * s)]
      norm_num at h1 η1 ⊢
      linarith
    calc _ ≤ (1 / 2 ^ 53 * s + 1 / 2 ^ 230) * (9 / 4 * s + 1 / 2 ^ 230) :=
          mul_le_mul (h1.trans (add_le_add le_rfl η1)) g (abs_nonneg _) (by positivity)
      _ ≤ _ := by nlinarith
  obtain ⟨qa, qb⟩ := abs_le.1 qd
  have dR : d ≤ (1 + 7 / 2 / 2 ^ 53) * R ^ 2 + 1 / 2 ^ 220 := by linarith
  have S1 : q ^ 2 + y ^ 2 ≤ R ^ 2 + (6 / 2 ^ 53 * R ^ 2 + 1 / 2 ^ 210) := by
    norm_num at qb hb dR ⊢; nlinarith
  have S2 : R ^ 2 - (6 / 2 ^ 53 * R ^ 2 + 1 / 2 ^ 210) ≤ q ^ 2 + y ^ 2 := by
    norm_num at qa ha dR ⊢; nlinarith
  generalize q ^ 2 + y ^ 2 = S at *
  have RR : R ^ 2 ≤ 129 * R := by nlinarith
  rw [abs_le]
  constructor
  · rcases le_total R (16 / 2 ^ 46) with h | h
    · linarith [Real.sqrt_nonneg S]
    · have : R - 16 / 2 ^ 46 ≤ √S := by
        apply Real.le_sqrt_of_sq_le
        refine le_trans ?_ S2
        norm_num at h ⊢
        nlinarith
      linarith
  · have : √S ≤ R + 16 / 2 ^ 46 := by
      rw [Real.sqrt_le_iff]
      refine ⟨by positivity, S1.trans ?_⟩
      norm_num
      nlinarith
    linarith

/-- One call has one outcome, that of `boundRadD` for an angle near the exact one. -/
theorem boundLat_one {B : Rec} {mlt : ℝ} (hp : |B.phiCent| ≤ 360) (hm : |mlt| ≤ 24) : ∃ del,
    (∀ o, BoundLatD r L B mlt o ↔ o = (boundRadD r L B mlt del).map fun rad => B.hem * r (90 - rad)) ∧ |del| ≤ 16 ∧
      ∃ k : ℤ, |del - (gap B mlt + k * (2 * Real.pi))| ≤ 2 / 2 ^ 46 := by
  obtain ⟨del, u, h1, k, hk⟩ := gap_err hr hp hm (B := B)
  refine ⟨del, fun o => ?_, h1, k, hk⟩
  constructor
  · rintro ⟨phi, d, v1, v2, rfl⟩
    rw [(u d).1 ⟨phi, v1, v2⟩]
  · rintro rfl
    obtain ⟨phi, v1, v2⟩ := (u del).2 rfl
    exact ⟨phi, del, v1, v2, rfl⟩

/-- C199: a boundary latitude that is not NaN is the latitude of a point of its meridian whose distance from the centre of
the boundary is the corrected radius, up to `390 / 2 ^ 46` degrees, and it is not beyond the pole. -/
theorem C199_on_boundary {B : Rec} (hv : B.Valid) {mlt lat : ℝ} (hB : Mild B (B.r + B.rf mlt)) (hm : |mlt| ≤ 24)
    (h : BoundLatD r L B mlt (some lat)) :
    |distCentre B lat mlt - (B.r + B.rf mlt)| ≤ 390 / 2 ^ 46 ∧ B.hem * lat ≤ 90 := by
  obtain ⟨del, u, hd, k, hk⟩ := boundLat_one hr hL hB.phi hm (B := B) (L := L)
  obtain ⟨ex, ex1⟩ := across_err hr hL hL.trigCos hB.cent hd k hk
  obtain ⟨ey, ey1⟩ := across_err hr hL hL.trigSin hB.cent hd k hk
  have h := (u _).1 h
  have hh : B.hem * B.hem = 1 := by rcases hv.hem with h | h <;> rw [h] <;> norm_num
  have dc : distCentre B lat mlt = √((colat B.hem lat - B.rCent * Real.cos (gap B mlt)) ^ 2 +
      (B.rCent * Real.sin (gap B mlt)) ^ 2) := by
    unfold distCentre polarDist2
    congr 1
    have := Real.sin_sq_add_cos_sq (gap B mlt)
    have e : hourAngle mlt - B.phiCent * Real.pi / 180 = gap B mlt := rfl
    rw [e]
    linear_combination (-B.rCent ^ 2) * this
  rw [dc]
  unfold boundRadD at h
  dsimp only at h
  have R0 := hB.pos
  have R1 := hB.le
  generalize B.r + B.rf mlt = R at *
  generalize B.rCent * Real.cos (gap B mlt) = x at *
  generalize B.rCent * Real.sin (gap B mlt) = y at *
  generalize r (B.rCent * L.cos del) = x' at *
  generalize r (B.rCent * L.sin del) = y' at *
  have eR := err128 hr (x := R) (by rw [abs_of_nonneg R0]; exact R1)
  have R0' := hr.nonneg R0
  generalize r R = R' at *
  obtain ⟨eRa, eRb⟩ := abs_le.1 eR
  obtain ⟨exa, exb⟩ := abs_le.1 ex
  obtain ⟨eya, eyb⟩ := abs_le.1 ey
  obtain ⟨x1a, x1b⟩ := abs_le.1 ex1
  obtain ⟨y1a, y1b⟩ := abs_le.1 ey1
  norm_num at eRa eRb exa exb eya eyb
  have de := disc_err hr (R := R') (y := y') (abs_le.2 ⟨by linarith, by linarith⟩) (abs_le.2 ⟨by linarith, by linarith⟩)
  generalize r (r (R' ^ 2) - r (y' ^ 2)) = d at *
  by_cases hd0 : d < 0
  · rw [if_pos hd0] at h; simp at h
  rw [if_neg hd0] at h
  push Not at hd0
  have hy := hyp_err hr hL R0' (by linarith) hd0 (de.2 hd0)
  have q0 : 0 ≤ L.sqrt d := by rw [hL.sqrt d hd0]; exact hr.nonneg (Real.sqrt_nonneg d)
  have q1 : L.sqrt d ≤ 130 := by
    have : L.sqrt d ≤ √(L.sqrt d ^ 2 + y' ^ 2) := Real.le_sqrt_of_sq_le (by nlinarith [sq_nonneg y'])
    have := (abs_le.1 hy).2
    norm_num at this
    linarith
  generalize L.sqrt d = q at *
  have e1 := err256 hr (x := x' + q) (abs_le.2 ⟨by linarith, by linarith⟩)
  by_cases hr0 : r (x' + q) < 0
  · rw [if_pos hr0] at h; simp at h
  rw [if_neg hr0] at h
  push Not at hr0
  obtain ⟨e1a, e1b⟩ := abs_le.1 e1
  norm_num at e1a e1b
  generalize r (x' + q) = ρ at *
  have e2 := err256 hr (x := 90 - ρ) (abs_le.2 ⟨by linarith, by linarith⟩)
  obtain ⟨e2a, e2b⟩ := abs_le.1 e2
  norm_num at e2a e2b
  have hl : lat = B.hem * r (90 - ρ) := by simpa using h
  have hl' : B.hem * lat = r (90 - ρ) := by rw [hl, ← mul_assoc, hh, one_mul]
  have d90 : IsDouble 90 := by exact_mod_cast isDouble_nat (n := 90) (by norm_num)
  refine ⟨?_, by rw [hl']; exact hr.le_dbl d90 (by linarith)⟩
  have n1 := norm_sub_le (colat B.hem lat - x) y q y'
  have n2 : |colat B.hem lat - x - q| ≤ 187 / 2 ^ 46 := by
    unfold colat
    rw [hl', abs_le]
    norm_num
    constructor <;> linarith
  have n3 : |y - y'| ≤ 185 / 2 ^ 46 := by rw [abs_sub_comm]; exact ey
  have n4 := abs_sub_le (√((colat B.hem lat - x) ^ 2 + y ^ 2)) (√(q ^ 2 + y' ^ 2)) R
  have n5 := abs_sub_le (√(q ^ 2 + y' ^ 2)) R' R
  norm_num at n2 n3 hy eR ⊢
  linarith

/-- The rounded radius along the meridian: NaN if the line passes by the circle, otherwise near the exact one. -/
theorem rad_err {B : Rec} {mlt del : ℝ} (hB : Mild B (B.r + B.rf mlt)) (hd : |del| ≤ 16) (k : ℤ)
    (hk : |del - (gap B mlt + k * (2 * Real.pi))| ≤ 2 / 2 ^ 46) :
    (halfChord2 B mlt ≤ -(1 / 2 ^ 30) → boundRadD r L B mlt del = none) ∧
    (1 / 2 ^ 30 ≤ halfChord2 B mlt → ∃ ρ, |ρ - farCross B mlt| ≤ (188 + 34020 / √(halfChord2 B mlt)) / 2 ^ 46 ∧ |ρ| ≤ 256 ∧
      boundRadD r L B mlt del = if ρ < 0 then none else some ρ) := by
  obtain ⟨ex, ex1⟩ := across_err hr hL hL.trigCos hB.cent hd k hk
  obtain ⟨ey, ey1⟩ := across_err hr hL hL.trigSin hB.cent hd k hk
  unfold boundRadD farCross
  dsimp only
  have hD : halfChord2 B mlt = (B.r + B.rf mlt) ^ 2 - (B.rCent * Real.sin (gap B mlt)) ^ 2 := rfl
  have R0 := hB.pos
  have R1 := hB.le
  generalize halfChord2 B mlt = D at *
  generalize B.r + B.rf mlt = R at *
  generalize B.rCent * Real.cos (gap B mlt) = x at *
  generalize B.rCent * Real.sin (gap B mlt) = y at *
  generalize r (B.rCent * L.cos del) = x' at *
  generalize r (B.rCent * L.sin del) = y' at *
  have eR := err128 hr (x := R) (by rw [abs_of_nonneg R0]; exact R1)
  have R0' := hr.nonneg R0
  generalize r R = R' at *
  obtain ⟨eRa, eRb⟩ := abs_le.1 eR
  obtain ⟨exa, exb⟩ := abs_le.1 ex
  obtain ⟨eya, eyb⟩ := abs_le.1 ey
  obtain ⟨x1a, x1b⟩ := abs_le.1 ex1
  obtain ⟨y1a, y1b⟩ := abs_le.1 ey1
  norm_num at eRa eRb exa exb eya eyb
  have de := (disc_err hr (R := R') (y := y') (abs_le.2 ⟨by linarith, by linarith⟩) (abs_le.2 ⟨by linarith, by linarith⟩)).1
  have g1 : |R' ^ 2 - R ^ 2| ≤ 1 / 2 ^ 47 * 257 := by
    rw [show R' ^ 2 - R ^ 2 = (R' - R) * (R' + R) by ring, abs_mul]
    exact mul_le_mul eR (abs_le.2 ⟨by linarith, by linarith⟩) (abs_nonneg _) (by norm_num)
  have g2 : |y' ^ 2 - y ^ 2| ≤ 185 / 2 ^ 46 * 181 := by
    rw [show y' ^ 2 - y ^ 2 = (y' - y) * (y' + y) by ring, abs_mul]
    exact mul_le_mul ey (abs_le.2 ⟨by linarith, by linarith⟩) (abs_nonneg _) (by norm_num)
  generalize r (r (R' ^ 2) - r (y' ^ 2)) = d at *
  have dD : |d - D| ≤ 34020 / 2 ^ 46 := by
    obtain ⟨a1, a2⟩ := abs_le.1 g1
    obtain ⟨a3, a4⟩ := abs_le.1 g2
    obtain ⟨a5, a6⟩ := abs_le.1 de
    rw [hD, abs_le]
    norm_num at a1 a2 a3 a4 a5 a6 ⊢
    constructor <;> linarith
  obtain ⟨dDa, dDb⟩ := abs_le.1 dD
  norm_num at dDa dDb
  constructor
  · intro h
    norm_num at h
    rw [if_pos (by linarith)]
  · intro h
    norm_num at h
    have d0 : 0 < d := by linarith
    have D0 : 0 < D := by linarith
    have D2 : D ≤ 16384 := by rw [hD]; nlinarith [sq_nonneg y]
    rw [if_neg (not_lt.2 d0.le)]
    have s1 : √D ≤ 128 := Real.sqrt_le_iff.2 ⟨by norm_num, D2.trans (by norm_num)⟩
    have s2 : √d ≤ 129 := Real.sqrt_le_iff.2 ⟨by norm_num, by norm_num; linarith⟩
    have sD := Real.sqrt_pos.2 D0
    have sd := Real.sqrt_nonneg d
    have sq : |√d - √D| ≤ 34020 / 2 ^ 46 / √D := by
      rw [le_div_iff₀ sD]
      refine le_trans ?_ dD
      have e : d - D = (√d - √D) * (√d + √D) := by
        have a := Real.sq_sqrt d0.le
        have b := Real.sq_sqrt D0.le
        linear_combination -a + b
      rw [e, abs_mul, abs_of_pos (by linarith : (0 : ℝ) < √d + √D)]
      exact mul_le_mul_of_nonneg_left (by linarith) (abs_nonneg _)
    have e1 := hr.err (x := √d) (e := -45) (by norm_num) (by rw [abs_of_nonneg sd]; norm_num; linarith)
    rw [hL.sqrt d d0.le]
    have q0 := hr.nonneg sd
    obtain ⟨e1a, e1b⟩ := abs_le.1 e1
    norm_num at e1a e1b
    have e2 := err256 hr (x := x' + r (√d)) (abs_le.2 ⟨by linarith, by linarith⟩)
    have d256 : IsDouble 256 := by exact_mod_cast isDouble_nat (n := 256) (by norm_num)
    refine ⟨r (x' + r (√d)), ?_, abs_le.2 ⟨hr.dbl_le d256.neg (by linarith), hr.le_dbl d256 (by linarith)⟩, rfl⟩
    have e3 : r (x' + r (√d)) - (x + √D) = (r (x' + r (√d)) - (x' + r (√d))) + ((x' - x) + ((r (√d) - √d) + (√d - √D))) := by ring
    rw [e3]
    refine (abs_add_le _ _).trans ((add_le_add le_rfl ((abs_add_le _ _).trans (add_le_add le_rfl (abs_add_le _ _)))).trans ?_)
    have e4 : 34020 / 2 ^ 46 / √D = 34020 / √D / 2 ^ 46 := by ring
    rw [e4] at sq
    generalize 34020 / √D = w at *
    norm_num at e1 e2 ex sq ⊢
    linarith

/-- C199: a meridian that clearly cuts the circle on the side of the magnetic pole that is asked for gets the latitude of the
farther crossing, up to `(190 + 34020 / h) / 2 ^ 46` degrees (`h` half of the chord). -/
theorem C199_accurate {B : Rec} (hv : B.Valid) {mlt lat' : ℝ} (hB : Mild B (B.r + B.rf mlt)) (hm : |mlt| ≤ 24)
    (h : boundaryLat B mlt = .ok (some lat')) (hc : 1 / 2 ^ 30 ≤ halfChord2 B mlt) (hx : 1 / 2 ^ 14 ≤ colat B.hem lat') :
    ∃ lat, (∀ o, BoundLatD r L B mlt o ↔ o = some lat) ∧ |lat - lat'| ≤ (190 + 34020 / √(halfChord2 B mlt)) / 2 ^ 46 := by
  obtain ⟨del, u, hd, k, hk⟩ := boundLat_one hr hL hB.phi hm (B := B) (L := L)
  obtain ⟨ρ, h1, h2, h3⟩ := (rad_err hr hL hB hd k hk).2 hc
  have hh : B.hem * B.hem = 1 := by rcases hv.hem with h | h <;> rw [h] <;> norm_num
  have hf : lat' = B.hem * (90 - farCross B mlt) := by
    rw [boundaryLat_ok] at h
    have e : (B.r + B.rf mlt) ^ 2 - (B.rCent * Real.sin (hourAngle mlt - B.phiCent * Real.pi / 180)) ^ 2 = halfChord2 B mlt := rfl
    rw [e, if_neg (by norm_num at hc; linarith)] at h
    split_ifs at h with h4
    · simp at h
    · injection h with h
      injection h with h
      exact h.symm
  have hcl : colat B.hem lat' = farCross B mlt := by
    unfold colat; rw [hf, ← mul_assoc, hh]; ring
  rw [hcl] at hx
  have s0 : (1 / 2 ^ 15 : ℝ) ≤ √(halfChord2 B mlt) := Real.le_sqrt_of_sq_le (by norm_num at hc ⊢; exact hc)
  have w1 : 34020 / √(halfChord2 B mlt) ≤ 34020 * 2 ^ 15 := by
    rw [div_le_iff₀ (lt_of_lt_of_le (by norm_num) s0)]
    norm_num at s0 ⊢
    linarith
  generalize 34020 / √(halfChord2 B mlt) = w at *
  have ρ0 : ¬ρ < 0 := by
    have := (abs_le.1 h1).1
    norm_num at this hx w1
    linarith
  rw [if_neg ρ0] at h3
  rw [h3] at u
  have e1 := err256 hr (x := 90 - ρ) (by obtain ⟨a, b⟩ := abs_le.1 h2; rw [abs_le]; constructor <;> linarith)
  refine ⟨B.hem * r (90 - ρ), u, ?_⟩
  rw [hf, show B.hem * r (90 - ρ) - B.hem * (90 - farCross B mlt) = B.hem * ((r (90 - ρ) - (90 - ρ)) - (ρ - farCross B mlt)) by
    ring, abs_of_hem hv.hem]
  refine (abs_sub _ _).trans ?_
  norm_num at e1 h1 ⊢
  linarith

/-- C199: a meridian whose line clearly passes by the circle, or whose line cuts it clearly only behind the pole, gets
NaN. -/
theorem C199_nan {B : Rec} {mlt : ℝ} (hB : Mild B (B.r + B.rf mlt)) (hm : |mlt| ≤ 24)
    (h : halfChord2 B mlt ≤ -(1 / 2 ^ 30) ∨ (1 / 2 ^ 30 ≤ halfChord2 B mlt ∧ farCross B mlt ≤ -(1 / 2 ^ 14))) :
    ∀ o, BoundLatD r L B mlt o ↔ o = none := by
  obtain ⟨del, u, hd, k, hk⟩ := boundLat_one hr hL hB.phi hm (B := B) (L := L)
  have key : boundRadD r L B mlt del = none := by
    obtain ⟨h1, h2⟩ := rad_err hr hL hB hd k hk
    rcases h with h | ⟨hc, hx⟩
    · exact h1 h
    · obtain ⟨ρ, h1, -, h3⟩ := h2 hc
      have s0 : (1 / 2 ^ 15 : ℝ) ≤ √(halfChord2 B mlt) := Real.le_sqrt_of_sq_le (by norm_num at hc ⊢; exact hc)
      have w1 : 34020 / √(halfChord2 B mlt) ≤ 34020 * 2 ^ 15 := by
        rw [div_le_iff₀ (lt_of_lt_of_le (by norm_num) s0)]
        norm_num at s0 ⊢
        linarith
      generalize 34020 / √(halfChord2 B mlt) = w at *
      rw [h3, if_pos]
      have := (abs_le.1 h1).2
      norm_num at this hx w1
      linarith
  intro o
  rw [u, key]
  rfl

/-- C199: a boundary around the magnetic pole has a latitude at every local time. -/
theorem C199_around_pole {B : Rec} (hv : B.Valid) {mlt : ℝ} (hB : Mild B (B.r + B.rf mlt)) (hm : |mlt| ≤ 24)
    (hin : |B.rCent| + 1 / 2 ^ 10 ≤ B.r + B.rf mlt) : ∃ lat lat', (∀ o, BoundLatD r L B mlt o ↔ o = some lat) ∧
      boundaryLat B mlt = .ok (some lat') ∧ |lat - lat'| ≤ 1 / 2 ^ 20 := by
  have c0 := abs_nonneg B.rCent
  have hD : (1 / 2 ^ 20 : ℝ) ≤ halfChord2 B mlt := by
    unfold halfChord2
    have s1 := Real.sin_sq_le_one (gap B mlt)
    have s2 : (B.rCent * Real.sin (gap B mlt)) ^ 2 ≤ |B.rCent| ^ 2 := by
      rw [mul_pow, sq_abs]; nlinarith [sq_nonneg B.rCent]
    generalize |B.rCent| = c at *
    generalize B.r + B.rf mlt = R at *
    norm_num at hin ⊢
    nlinarith
  have hs : (1 / 2 ^ 10 : ℝ) ≤ √(halfChord2 B mlt) := Real.le_sqrt_of_sq_le (by norm_num at hD ⊢; exact hD)
  have hX : (1 / 2 ^ 10 : ℝ) ≤ farCross B mlt := by
    have e : halfChord2 B mlt = ((B.r + B.rf mlt) ^ 2 - B.rCent ^ 2) + (B.rCent * Real.cos (gap B mlt)) ^ 2 := by
      unfold halfChord2
      linear_combination (-B.rCent ^ 2) * Real.sin_sq_add_cos_sq (gap B mlt)
    have c1 : -|B.rCent| ≤ B.rCent * Real.cos (gap B mlt) := (abs_le.1 (mul_cos_le _ _)).1
    unfold farCross
    have : (1 / 2 ^ 10 : ℝ) - B.rCent * Real.cos (gap B mlt) ≤ √(halfChord2 B mlt) := by
      apply Real.le_sqrt_of_sq_le
      rw [e, ← sq_abs B.rCent]
      generalize B.rCent * Real.cos (gap B mlt) = x at *
      generalize |B.rCent| = c at *
      generalize B.r + B.rf mlt = R at *
      norm_num at hin ⊢
      nlinarith
    linarith
  have hb : boundaryLat B mlt = .ok (some (B.hem * (90 - farCross B mlt))) := by
    rw [boundaryLat_ok]
    have e : (B.r + B.rf mlt) ^ 2 - (B.rCent * Real.sin (hourAngle mlt - B.phiCent * Real.pi / 180)) ^ 2 = halfChord2 B mlt := rfl
    have e' : B.rCent * Real.cos (hourAngle mlt - B.phiCent * Real.pi / 180) + √(halfChord2 B mlt) = farCross B mlt := rfl
    rw [e, if_neg (by norm_num at hD; linarith), e', if_neg (by norm_num at hX; linarith)]
  have hh : B.hem * B.hem = 1 := by rcases hv.hem with h | h <;> rw [h] <;> norm_num
  obtain ⟨lat, u, hl⟩ := C199_accurate hr hL hv hB hm hb (le_trans (by norm_num) hD) (by
    unfold colat; rw [← mul_assoc, hh, one_mul, sub_sub_cancel]; exact le_trans (by norm_num) hX)
  refine ⟨lat, _, u, hb, hl.trans ?_⟩
  have : 34020 / √(halfChord2 B mlt) ≤ 34020 * 2 ^ 10 := by
    rw [div_le_iff₀ (lt_of_lt_of_le (by norm_num) hs)]
    norm_num at hs ⊢
    linarith
  norm_num at this ⊢
  linarith

omit hL in
/-- C199: local times from -24 to 48 hours are brought into the half-open day, which changes them by whole days and at most
`2 ^ -49` hours. -/
theorem C199_wrap {m : ℝ} (dm : IsDouble m) (h0 : -24 ≤ m) (h1 : m < 48) : 0 ≤ wrapMltD r m ∧ wrapMltD r m < 24 ∧
    ∃ k : ℤ, |wrapMltD r m - (m + 24 * k)| ≤ 1 / 2 ^ 49 := by
  unfold wrapMltD
  dsimp only
  split_ifs with h2 h3 h3
  · have e1 : r (m + 24) = 24 := le_antisymm (hr.le_dbl d24 (by linarith)) h3
    have e2 := err32 hr (x := m + 24) (abs_le.2 ⟨by linarith, by linarith⟩)
    rw [e1] at e2 ⊢
    rw [sub_self, hr.keep isDouble_zero]
    refine ⟨le_rfl, by norm_num, 0, ?_⟩
    rw [show (0 : ℝ) - (m + 24 * (0 : ℤ)) = 24 - (m + 24) by push_cast; ring]
    exact e2
  · refine ⟨hr.dbl_le isDouble_zero (by linarith), by linarith, 1, ?_⟩
    have e2 := err32 hr (x := m + 24) (abs_le.2 ⟨by linarith, by linarith⟩)
    simpa using e2
  · have e2 := err32 hr (x := m - 24) (abs_le.2 ⟨by linarith, by linarith⟩)
    refine ⟨hr.dbl_le isDouble_zero (by linarith), ?_, -1, ?_⟩
    · obtain ⟨k, hk⟩ := dm.coarse (e := -48) (by norm_num; rw [abs_of_nonneg (by linarith)]; linarith)
      have dd : IsDouble (m - 24) := by
        refine isDouble_grid (e := -48) (k := k - 24 * 2 ^ 48) (by norm_num) ?_ ?_
        · rw [hk]; push_cast; norm_num; ring
        · rw [abs_of_nonneg (by linarith)]; norm_num; linarith
      rw [hr.keep dd]
      linarith
    · rw [show m + 24 * ((-1 : ℤ) : ℝ) = m - 24 by push_cast; ring]
      exact e2
  · exact ⟨by linarith, by linarith, 0, by norm_num⟩

/-- C200: a stored boundary location, put into `normal_coord`, comes out at the reference latitude, up to `(650 S + 1) / 2 ^ 46`
degrees (`S` the scaling from magnetic to OCB degrees). -/
theorem C200_reference {B : Rec} (hv : B.Valid) {mlt lat olat omlt : ℝ} (hF : Rec.Fair B (B.rf mlt)) (hR : B.r + B.rf mlt ≤ 128)
    (hm : |mlt| ≤ 24) (h : BoundLatD r L B mlt (some lat)) (h0 : 0 ≤ B.hem * lat) (hn : NormalD r L B lat mlt olat omlt) :
    |olat - B.blat| ≤ (650 * ((90 - |B.blat|) / (B.r + B.rf mlt)) + 1) / 2 ^ 46 := by
  have R0 : (0 : ℝ) < B.r + B.rf mlt := lt_of_lt_of_le (by norm_num) hF.rad
  obtain ⟨d1, d2⟩ := C199_on_boundary hr hL hv ⟨hF.phi, hF.cent, R0.le, hR⟩ hm h
  obtain ⟨ol, om, lat', mlt', u, e, -, -, hl, -⟩ := C186_normal_coord hr hL hv hF h0 d2 (hm.trans (by norm_num))
  rw [((u _ _).1 hn).1]
  obtain ⟨l, m, e', hc⟩ := C24_colatitude B hv lat mlt R0
  rw [e] at e'
  injection e' with e'
  rw [← (Prod.mk.inj e').1] at hc
  have A0 : (0 : ℝ) < 90 - |B.blat| := lt_of_lt_of_le (by norm_num) hF.ref
  have hb : B.hem * B.blat = |B.blat| := by
    have := abs_of_hem (x := B.blat) hv.hem
    rw [← this, abs_of_nonneg hv.blat]
  have key : |lat' - B.blat| ≤ 390 / 2 ^ 46 * ((90 - |B.blat|) / (B.r + B.rf mlt)) := by
    rw [← abs_of_hem (x := lat' - B.blat) hv.hem]
    have e2 : B.hem * (lat' - B.blat) = -(distCentre B lat mlt - (B.r + B.rf mlt)) * ((90 - |B.blat|) / (B.r + B.rf mlt)) := by
      unfold colat at hc
      rw [mul_sub, hb]
      have : distCentre B lat mlt * (90 - |B.blat|) / (B.r + B.rf mlt) =
          (distCentre B lat mlt - (B.r + B.rf mlt)) * ((90 - |B.blat|) / (B.r + B.rf mlt)) + (90 - |B.blat|) := by
        field_simp
        ring
      linarith
    rw [e2, abs_mul, abs_neg, abs_of_pos (div_pos A0 R0)]
    exact mul_le_mul_of_nonneg_right d1 (div_pos A0 R0).le
  have := abs_sub_le ol lat' B.blat
  generalize (90 - |B.blat|) / (B.r + B.rf mlt) = S at *
  norm_num at hl key ⊢
  linarith

end Bound

/-! ### Examples: the hypotheses of C198 to C200 are met together -/

theorem exLib_wide (r : ℝ → ℝ) : (exLib r).Wide where
  cos x _ := by simp [exLib]
  sin x _ := by simp [exLib]

/-- The default correction of AMPERE boundaries at 6 hours is a number in double precision, near the exact one. -/
example (r : ℝ → ℝ) (hr : Nearest r) : ∃ v v', harmonic id 6 "ampere" "median" = .ok v ∧
    HarmonicD r (exLib r) id 6 "ampere" "median" (.ok v') ∧ |v' - v| ≤ 1 / 10 ^ 12 := by
  have hm : |(6 : ℝ)| ≤ 48 := by norm_num [abs_of_pos]
  rcases C198_harmonic hr (exLib_wide r) id hm "ampere" "median" with ⟨h, -⟩ | ⟨v, v', h, u, hb⟩
  · obtain ⟨v, hv⟩ := (C52_defined id 6 "ampere" "median").2.1.2 (.inl ⟨rfl, .inl rfl⟩)
    rw [h] at hv
    cases hv
  · exact ⟨v, v', h, (u _).2 rfl, hb.trans (by norm_num)⟩

theorem exRec_mild : Mild exRec (exRec.r + exRec.rf 18) := by
  constructor <;> norm_num [exRec, abs_of_pos]

/-- The example record has a boundary latitude near 79 degrees at 18 hours, and it is taken to the reference latitude. -/
example (r : ℝ → ℝ) (hr : Nearest r) : ∃ lat olat omlt, BoundLatD r (exLib r) exRec 18 (some lat) ∧ |lat - 79| ≤ 1 / 10 ^ 6 ∧
    NormalD r (exLib r) exRec lat 18 olat omlt ∧ |olat - 74| ≤ 1 / 10 ^ 11 := by
  have g2 : |(18 : ℝ)| ≤ 24 := by norm_num [abs_of_pos]
  obtain ⟨lat, lat', u, e, hl⟩ := C199_around_pole hr (exLib_ok r) exRec_valid exRec_mild g2 (by norm_num [exRec, abs_of_pos])
  have h79 : lat' = 79 := by
    have h : hourAngle 18 - 90 * Real.pi / 180 = Real.pi := by unfold hourAngle; ring
    rw [boundaryLat_ok] at e
    simp only [exRec, h, Real.sin_pi, Real.cos_pi] at e
    rw [show ((16 : ℝ) + 0) ^ 2 - (5 * 0) ^ 2 = 16 ^ 2 by norm_num, Real.sqrt_sq (by norm_num)] at e
    norm_num at e
    linarith
  rw [h79] at hl
  have hb := (u _).2 rfl
  have h0 : 0 ≤ exRec.hem * lat := by
    have := (abs_le.1 hl).1
    norm_num [exRec] at this ⊢
    linarith
  have h1 := (C199_on_boundary hr (exLib_ok r) exRec_valid exRec_mild g2 hb).2
  obtain ⟨olat, omlt, -, -, v, -⟩ := C186_normal_coord hr (exLib_ok r) exRec_valid exRec_fair h0 h1 (g2.trans (by norm_num))
  have hn := (v olat omlt).2 ⟨rfl, rfl⟩
  refine ⟨lat, olat, omlt, hb, hl.trans (by norm_num), hn, ?_⟩
  have := C200_reference hr (exLib_ok r) exRec_valid exRec_fair exRec_mild.le g2 hb h0 hn
  refine this.trans ?_
  norm_num [exRec, abs_of_pos]

/-- A circle of 5 degrees radius, 20 degrees from the pole, is not met by the meridian at a right angle to its centre. -/
example : Mild ⟨90, 20, 5, fun _ => 0, 1, 74⟩ 5 ∧ halfChord2 ⟨90, 20, 5, fun _ => 0, 1, 74⟩ 12 ≤ -(1 / 2 ^ 30) := by
  refine ⟨by constructor <;> norm_num [abs_of_pos], ?_⟩
  have h : hourAngle 12 - 90 * Real.pi / 180 = Real.pi / 2 := by unfold hourAngle; ring
  simp only [halfChord2, gap, h, Real.sin_pi_div_two]
  norm_num

/-- The opposite side of the pole. -/
example : Mild ⟨90, 20, 5, fun _ => 0, 1, 74⟩ 5 ∧ 1 / 2 ^ 30 ≤ halfChord2 ⟨90, 20, 5, fun _ => 0, 1, 74⟩ 18 ∧
    farCross ⟨90, 20, 5, fun _ => 0, 1, 74⟩ 18 ≤ -(1 / 2 ^ 14) := by
  have h : hourAngle 18 - 90 * Real.pi / 180 = Real.pi := by unfold hourAngle; ring
  refine ⟨by constructor <;> norm_num [abs_of_pos], ?_, ?_⟩
  · simp only [halfChord2, gap, h, Real.sin_pi]
    norm_num
  · simp only [farCross, halfChord2, gap, h, Real.sin_pi, Real.cos_pi]
    rw [show ((5 : ℝ) + 0) ^ 2 - (20 * 0) ^ 2 = 5 ^ 2 by norm_num, Real.sqrt_sq (by norm_num)]
    norm_num

example (r : ℝ → ℝ) (hr : Nearest r) : 0 ≤ wrapMltD r (-1 / 2 ^ 60) ∧ wrapMltD r (-1 / 2 ^ 60) < 24 := by
  have := C199_wrap hr (m := -1 / 2 ^ 60) ⟨-1, -60, by norm_num, by norm_num, by norm_num⟩ (by norm_num) (by norm_num)
  exact ⟨this.1, this.2.1⟩

end Ocb.Dbl
