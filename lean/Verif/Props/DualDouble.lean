import Verif.Props.BoundDouble
import Verif.Model.DualDouble

/-!
# C201: the coordinates of `DualBoundary` in double precision
-/

set_option autoImplicit false

namespace Ocb.Dbl

open Ocb.Coord Ocb.Corr

/-- The records for which the bounds hold: those of C199 with the magnetic pole inside the circle by at least a degree. -/
structure Round (B : Rec) (mlt : ℝ) : Prop where
  mild : Mild B (B.r + B.rf mlt)
  pole : |B.rCent| + 1 ≤ B.r + B.rf mlt

theorem Round.far {B : Rec} {mlt : ℝ} (hB : Round B mlt) : 1 ≤ √(halfChord2 B mlt) ∧ 1 ≤ farCross B mlt ∧
    1 ≤ √(halfChord2 B mlt) - B.rCent * Real.cos (gap B mlt) := by
  have hin := hB.pole
  have c0 := abs_nonneg B.rCent
  have e : halfChord2 B mlt = ((B.r + B.rf mlt) ^ 2 - B.rCent ^ 2) + (B.rCent * Real.cos (gap B mlt)) ^ 2 := by
    unfold halfChord2
    linear_combination (-B.rCent ^ 2) * Real.sin_sq_add_cos_sq (gap B mlt)
  obtain ⟨c1, c2⟩ := abs_le.1 (mul_cos_le B.rCent (gap B mlt))
  have key : ∀ x : ℝ, |x| ≤ |B.rCent| → x ^ 2 = (B.rCent * Real.cos (gap B mlt)) ^ 2 → 1 + x ≤ √(halfChord2 B mlt) := by
    intro x hx h2
    apply Real.le_sqrt_of_sq_le
    rw [e, ← sq_abs B.rCent, ← h2]
    obtain ⟨x1, x2⟩ := abs_le.1 hx
    generalize |B.rCent| = c at *
    generalize B.r + B.rf mlt = R at *
    nlinarith
  have hX := abs_le.2 ⟨c1, c2⟩
  have k1 := key (B.rCent * Real.cos (gap B mlt)) hX rfl
  have k2 := key (-(B.rCent * Real.cos (gap B mlt))) (by rwa [abs_neg]) (by ring)
  refine ⟨by linarith, by unfold farCross; linarith, by linarith⟩

theorem Round.exact {B : Rec} {mlt : ℝ} (hB : Round B mlt) :
    boundaryLat B mlt = .ok (some (B.hem * (90 - farCross B mlt))) := by
  obtain ⟨h1, h2, -⟩ := hB.far
  have h0 : 0 < halfChord2 B mlt := Real.sqrt_pos.1 (by linarith)
  rw [boundaryLat_ok]
  have e : (B.r + B.rf mlt) ^ 2 - (B.rCent * Real.sin (hourAngle mlt - B.phiCent * Real.pi / 180)) ^ 2 = halfChord2 B mlt := rfl
  have e' : B.rCent * Real.cos (hourAngle mlt - B.phiCent * Real.pi / 180) + √(halfChord2 B mlt) = farCross B mlt := rfl
  rw [e, if_neg (by linarith), e', if_neg (by linarith)]

/-- How far inside the circle a location poleward of the boundary is. -/
theorem Round.inside {B : Rec} {mlt lat : ℝ} (hB : Round B mlt) (h1 : B.hem * lat ≤ 90)
    (h : colat B.hem lat ≤ farCross B mlt) : (farCross B mlt - colat B.hem lat) / 256 ≤ B.r + B.rf mlt - distCentre B lat mlt := by
  obtain ⟨s1, -, s3⟩ := hB.far
  have h0 : 0 ≤ halfChord2 B mlt := (Real.sqrt_pos.1 (by linarith)).le
  have ρ0 : 0 ≤ colat B.hem lat := by unfold colat; linarith
  have dc : distCentre B lat mlt ^ 2 = (colat B.hem lat - B.rCent * Real.cos (gap B mlt)) ^ 2 +
      (B.rCent * Real.sin (gap B mlt)) ^ 2 := by
    unfold distCentre
    rw [Real.sq_sqrt]
    · unfold polarDist2
      have e : hourAngle mlt - B.phiCent * Real.pi / 180 = gap B mlt := rfl
      rw [e]
      linear_combination (-B.rCent ^ 2) * Real.sin_sq_add_cos_sq (gap B mlt)
    · unfold polarDist2
      have e : hourAngle mlt - B.phiCent * Real.pi / 180 = gap B mlt := rfl
      rw [e]
      nlinarith [sq_nonneg (colat B.hem lat - B.rCent * Real.cos (gap B mlt)), sq_nonneg (B.rCent * Real.sin (gap B mlt)),
        Real.sin_sq_add_cos_sq (gap B mlt)]
  have d0 : 0 ≤ distCentre B lat mlt := Real.sqrt_nonneg _
  have sq := Real.sq_sqrt h0
  have hd : halfChord2 B mlt = (B.r + B.rf mlt) ^ 2 - (B.rCent * Real.sin (gap B mlt)) ^ 2 := rfl
  have R0 := hB.mild.pos
  have R1 := hB.mild.le
  unfold farCross at *
  generalize √(halfChord2 B mlt) = s at *
  generalize halfChord2 B mlt = D at *
  generalize B.rCent * Real.sin (gap B mlt) = y at *
  generalize B.rCent * Real.cos (gap B mlt) = x at *
  generalize colat B.hem lat = ρ at *
  generalize distCentre B lat mlt = d at *
  generalize B.r + B.rf mlt = R at *
  have e : R ^ 2 - d ^ 2 = (x + s - ρ) * (s - x + ρ) := by
    rw [dc]; linear_combination -hd - sq
  have e1 : x + s - ρ ≤ (R - d) * (R + d) := by nlinarith
  have e2 : d ≤ R := by
    by_contra hc
    push Not at hc
    nlinarith
  nlinarith

section Dual

variable {r : ℝ → ℝ} (hr : Nearest r)

include hr

/-- Relative error with an allowance for underflow. -/
theorem relT (x : ℝ) : |r x - x| ≤ 1 / 2 ^ 53 * |x| + 1 / 2 ^ 200 := by
  refine (hr.relAbs x).trans (add_le_add (le_of_eq (by norm_num)) ?_)
  calc (2 : ℝ) ^ (-1075 : ℤ) ≤ 2 ^ (-200 : ℤ) := two_le (by norm_num)
    _ = 1 / 2 ^ 200 := by norm_num

/-- A number next to a point of the grid of its binade is rounded to it. -/
theorem near_grid {x y : ℝ} {e k : ℤ} (he : -1074 ≤ e) (hk : y = k * 2 ^ e) (hy : |y| ≤ 2 ^ (e + 53)) (hx : 2 ^ (e + 52) ≤ x)
    (h : |y - x| < 2 ^ e / 2) : r x = y := by
  have dp : IsDouble ((2 : ℝ) ^ (e + 52)) := by
    refine isDouble_grid (e := e) (k := 2 ^ 52) he ?_ ?_
    · rw [two_add, mul_comm]; norm_num
    · rw [abs_of_pos (two_pos _)]; exact two_le (by omega)
  have h1 := hr.dbl_le dp hx
  have h2 := hr.best x y (isDouble_grid he hk hy)
  obtain ⟨j, hj⟩ := (hr.mem x).coarse (e := e) (h1.trans (le_abs_self _))
  have h3 : |r x - y| < 2 ^ e := by
    have := abs_sub_le (r x) x y
    rw [abs_sub_comm x y] at this
    linarith
  rw [hj, hk, ← sub_mul, abs_mul, abs_of_pos (two_pos e), mul_lt_iff_lt_one_left (two_pos e)] at h3
  have : |j - k| < 1 := by exact_mod_cast h3
  have : j = k := by
    have := Int.abs_lt_one_iff.1 this
    omega
  rw [hj, hk, this]

variable {L : Lib} (hL : L.Ok r)

include hL

theorem round_bound {B : Rec} (hv : B.Valid) {mlt : ℝ} (hB : Round B mlt) (hm : |mlt| ≤ 24) :
    ∃ b, (∀ o, BoundLatD r L B mlt o ↔ o = some b) ∧ |b - B.hem * (90 - farCross B mlt)| ≤ 34210 / 2 ^ 46 := by
  obtain ⟨s1, s2, -⟩ := hB.far
  have hD : 1 ≤ halfChord2 B mlt := by
    have h0 : 0 < halfChord2 B mlt := Real.sqrt_pos.1 (by linarith)
    have := Real.sq_sqrt h0.le
    nlinarith
  have hh : B.hem * B.hem = 1 := by rcases hv.hem with h | h <;> rw [h] <;> norm_num
  obtain ⟨b, u, hb⟩ := C199_accurate hr hL hv hB.mild hm hB.exact (le_trans (by norm_num) hD) (by
    unfold colat; rw [← mul_assoc, hh, one_mul, sub_sub_cancel]; exact le_trans (by norm_num) s2)
  refine ⟨b, u, hb.trans ?_⟩
  have : 34020 / √(halfChord2 B mlt) ≤ 34020 := div_le_self (by norm_num) s1
  linarith

omit hL in
/-- The error of the latitude between the boundaries. -/
theorem mid_err {O E : Rec} {la o e o' e' : ℝ} (ho : |o - o'| ≤ 34210 / 2 ^ 46) (he : |e - e'| ≤ 34210 / 2 ^ 46)
    (ho1 : |o'| ≤ 90) (he1 : |e'| ≤ 90) (hla : |la| ≤ 90) (hw : |o' - la| ≤ |o' - e'|) (hg : 1 / 2 ^ 28 ≤ |o' - e'|)
    (hK : |O.blat - E.blat| ≤ 90) (hO : |O.blat| ≤ 90) :
    |midD r O E la o e - (O.blat - (o' - la) * (O.blat - E.blat) / (o' - e'))| ≤
      (140000 * (|O.blat - E.blat| / |o' - e'|) + 4) / 2 ^ 46 := by
  unfold midD
  obtain ⟨o1, o2⟩ := abs_le.1 ho
  obtain ⟨e1, e2⟩ := abs_le.1 he
  obtain ⟨a1, a2⟩ := abs_le.1 ho1
  obtain ⟨b1, b2⟩ := abs_le.1 he1
  obtain ⟨c1, c2⟩ := abs_le.1 hla
  have w0 := err256 hr (x := o - la) (abs_le.2 ⟨by norm_num at o1; linarith, by norm_num at o2; linarith⟩)
  have g0 := err256 hr (x := o - e) (abs_le.2 ⟨by norm_num at o1 e2; linarith, by norm_num at o2 e1; linarith⟩)
  have k0 := err128 hr (x := O.blat - E.blat) (hK.trans (by norm_num))
  have w1 : |r (o - la) - (o' - la)| ≤ 34211 / 2 ^ 46 := by
    rw [show r (o - la) - (o' - la) = (r (o - la) - (o - la)) + (o - o') by ring]
    refine (abs_add_le _ _).trans ?_
    norm_num at w0 ho ⊢
    linarith
  have g1 : |r (o - e) - (o' - e')| ≤ 68421 / 2 ^ 46 := by
    rw [show r (o - e) - (o' - e') = (r (o - e) - (o - e)) + ((o - o') - (e - e')) by ring]
    refine (abs_add_le _ _).trans ((add_le_add le_rfl (abs_sub _ _)).trans ?_)
    norm_num at g0 ho he ⊢
    linarith
  clear o1 o2 e1 e2 a1 a2 b1 b2 c1 c2 w0 g0 ho he ho1 he1 hla
  generalize r (o - la) = W at *
  generalize r (o - e) = G at *
  generalize r (O.blat - E.blat) = K' at *
  generalize o' - la = w at *
  generalize o' - e' = g at *
  generalize O.blat - E.blat = K at *
  have ag : 0 < |g| := lt_of_lt_of_le (by norm_num) hg
  have gn : g ≠ 0 := abs_pos.1 ag
  have G1 : 0.735 * |g| ≤ |G| := by
    have := abs_sub_abs_le_abs_sub g G
    rw [abs_sub_comm] at this
    norm_num at g1 hg this ⊢
    linarith
  have aG : 0 < |G| := lt_of_lt_of_le (by positivity) G1
  have Gn : G ≠ 0 := abs_pos.1 aG
  have u1 : |W / G - w / g| ≤ 139800 / 2 ^ 46 / |g| := by
    rw [show W / G - w / g = ((W - w) * g - w * (G - g)) / (G * g) by field_simp; ring, abs_div, abs_mul G,
      div_le_div_iff₀ (mul_pos aG ag) ag]
    have : |(W - w) * g - w * (G - g)| ≤ 102632 / 2 ^ 46 * |g| := by
      refine (abs_sub _ _).trans ?_
      rw [abs_mul, abs_mul]
      calc _ ≤ 34211 / 2 ^ 46 * |g| + |g| * (68421 / 2 ^ 46) :=
            add_le_add (mul_le_mul_of_nonneg_right w1 ag.le) (mul_le_mul hw g1 (abs_nonneg _) ag.le)
        _ = _ := by ring
    calc |(W - w) * g - w * (G - g)| * |g| ≤ 102632 / 2 ^ 46 * |g| * |g| := mul_le_mul_of_nonneg_right this ag.le
      _ ≤ 139800 / 2 ^ 46 * (0.735 * |g|) * |g| := by nlinarith [mul_pos ag ag]
      _ ≤ 139800 / 2 ^ 46 * |G| * |g| := by
        apply mul_le_mul_of_nonneg_right _ ag.le
        exact mul_le_mul_of_nonneg_left G1 (by norm_num)
      _ = _ := by ring
  have u2 : |w / g| ≤ 1 := by rw [abs_div, div_le_one ag]; exact hw
  have u3 : |W / G| ≤ 1.54 := by
    have h1 : 139800 / 2 ^ 46 / |g| ≤ 139800 / 2 ^ 18 := by
      rw [div_le_iff₀ ag]
      norm_num at hg ⊢
      linarith
    have := abs_sub_abs_le_abs_sub (W / G) (w / g)
    norm_num at h1 ⊢
    linarith
  have k1 : |K'| ≤ 91 := by
    have := abs_sub_abs_le_abs_sub K' K
    norm_num at k0
    linarith
  have p1 : |W / G * K'| ≤ 141 := by
    rw [abs_mul]
    calc _ ≤ (1.54 : ℝ) * 91 := mul_le_mul u3 k1 (abs_nonneg _) (by norm_num)
      _ ≤ _ := by norm_num
  have p2 : |r (W * K') / G - W / G * K'| ≤ 1.2 / 2 ^ 46 := by
    have := relT hr (W * K')
    rw [show r (W * K') / G - W / G * K' = (r (W * K') - W * K') / G by field_simp, abs_div, div_le_iff₀ aG]
    have e1 : |W * K'| = |W / G * K'| * |G| := by rw [← abs_mul]; congr 1; field_simp
    rw [e1] at this
    have e2 : (1 : ℝ) / 2 ^ 200 ≤ 1 / 2 ^ 100 * |G| := by
      have : (1 : ℝ) / 2 ^ 100 ≤ |G| := by norm_num at hg G1 ⊢; linarith
      calc (1 : ℝ) / 2 ^ 200 = 1 / 2 ^ 100 * (1 / 2 ^ 100) := by norm_num
        _ ≤ _ := mul_le_mul_of_nonneg_left this (by norm_num)
    have e3 : 1 / 2 ^ 53 * (|W / G * K'| * |G|) ≤ 1 / 2 ^ 53 * (141 * |G|) :=
      mul_le_mul_of_nonneg_left (mul_le_mul_of_nonneg_right p1 aG.le) (by norm_num)
    norm_num at this e2 e3 ⊢
    linarith
  have p3 : |W / G * K' - w * K / g| ≤ 139800 / 2 ^ 46 * (|K| / |g|) + 0.77 / 2 ^ 46 := by
    rw [show W / G * K' - w * K / g = (W / G - w / g) * K + W / G * (K' - K) by field_simp; ring]
    refine (abs_add_le _ _).trans (add_le_add ?_ ?_)
    · rw [abs_mul]
      calc _ ≤ 139800 / 2 ^ 46 / |g| * |K| := mul_le_mul_of_nonneg_right u1 (abs_nonneg _)
        _ = _ := by ring
    · rw [abs_mul]
      calc _ ≤ 1.54 * (1 / 2 ^ 47) := mul_le_mul u3 k0 (abs_nonneg _) (by norm_num)
        _ = _ := by norm_num
  have p4 : |r (W * K') / G| ≤ 142 := by
    have := abs_sub_abs_le_abs_sub (r (W * K') / G) (W / G * K')
    norm_num at p2
    linarith
  have q1 := err256 hr (p4.trans (by norm_num))
  have q2 : |r (r (W * K') / G)| ≤ 143 := by
    have := abs_sub_abs_le_abs_sub (r (r (W * K') / G)) (r (W * K') / G)
    norm_num at q1
    linarith
  have q3 := err256 hr (x := O.blat - r (r (W * K') / G)) ((abs_sub _ _).trans (by linarith))
  have nonneg : 0 ≤ |K| / |g| := by positivity
  rw [show r (O.blat - r (r (W * K') / G)) - (O.blat - w * K / g) = (r (O.blat - r (r (W * K') / G)) -
    (O.blat - r (r (W * K') / G))) - ((r (r (W * K') / G) - r (W * K') / G) + ((r (W * K') / G - W / G * K') +
      (W / G * K' - w * K / g))) by ring]
  refine (abs_sub _ _).trans ((add_le_add le_rfl ((abs_add_le _ _).trans (add_le_add le_rfl (abs_add_le _ _)))).trans ?_)
  generalize |K| / |g| = S at *
  norm_num at q3 q1 p2 p3 ⊢
  linarith

omit hL in
/-- The error of the latitude equatorward of the boundaries. -/
theorem out_err {E : Rec} {la e e' : ℝ} (he : |e - e'| ≤ 34210 / 2 ^ 46) (he0 : 1 ≤ |e'|) (he1 : |e'| ≤ 90)
    (hla : |la| ≤ |e'|) (hw : |e' - la| ≤ |e'|) (hE : |E.blat| ≤ 90) :
    |outD r E la e - la * E.blat / e'| ≤ (35000 * (|E.blat| / |e'|) + 2) / 2 ^ 46 := by
  unfold outD
  have w0 := err256 hr (x := e - la) (by
    rw [show e - la = (e - e') + (e' - la) by ring]
    refine (abs_add_le _ _).trans ?_
    norm_num at he
    linarith)
  have w1 : |r (e - la)| ≤ 91 := by
    rw [show r (e - la) = (r (e - la) - (e - la)) + ((e - e') + (e' - la)) by ring]
    refine (abs_add_le _ _).trans ((add_le_add le_rfl (abs_add_le _ _)).trans ?_)
    norm_num at he w0
    linarith
  have ae : 0 < |e'| := by linarith
  have en : e' ≠ 0 := abs_pos.1 ae
  have E1 : 0.9999 * |e'| ≤ |e| := by
    have := abs_sub_abs_le_abs_sub e' e
    rw [abs_sub_comm] at this
    norm_num at he ⊢
    linarith
  have aE : 0 < |e| := lt_of_lt_of_le (by positivity) E1
  have eN : e ≠ 0 := abs_pos.1 aE
  have E2 : |E.blat / e| ≤ 1.0002 * (|E.blat| / |e'|) := by
    rw [abs_div, div_le_iff₀ aE]
    have : |E.blat| = |E.blat| / |e'| * |e'| := by field_simp
    calc |E.blat| = |E.blat| / |e'| * |e'| := this
      _ ≤ |E.blat| / |e'| * (1.0002 * |e|) := mul_le_mul_of_nonneg_left (by linarith) (by positivity)
      _ = _ := by ring
  have S0 : 0 ≤ |E.blat| / |e'| := by positivity
  have S1 : |E.blat| / |e'| ≤ 90 := by rw [div_le_iff₀ ae]; nlinarith
  have k0 := relT hr (E.blat / e)
  have hT : |(e' - la) * (E.blat / e')| ≤ 90 := by
    rw [abs_mul, abs_div, mul_div_assoc', div_le_iff₀ ae]
    nlinarith [abs_nonneg E.blat, abs_nonneg (e' - la)]
  have v : |r (e - la) * (E.blat / e) - (e' - la) * (E.blat / e')| ≤ 34215 / 2 ^ 46 * (|E.blat| / |e'|) * 1.0002 := by
    rw [show r (e - la) * (E.blat / e) - (e' - la) * (E.blat / e') = ((r (e - la) - (e - la)) + la / e' * (e - e')) *
      (E.blat / e) by field_simp; ring, abs_mul]
    have h1 : |la / e'| ≤ 1 := by rw [abs_div, div_le_one ae]; exact hla
    have h2 : |(r (e - la) - (e - la)) + la / e' * (e - e')| ≤ 34215 / 2 ^ 46 := by
      refine (abs_add_le _ _).trans ?_
      rw [abs_mul]
      have := mul_le_mul h1 he (abs_nonneg _) (by norm_num : (0 : ℝ) ≤ 1)
      norm_num at w0 this ⊢
      linarith
    calc _ ≤ 34215 / 2 ^ 46 * (1.0002 * (|E.blat| / |e'|)) := mul_le_mul h2 E2 (abs_nonneg _) (by norm_num)
      _ = _ := by ring
  have v2 : |r (e - la) * (r (E.blat / e) - E.blat / e)| ≤ 1 / 2 ^ 46 * (|E.blat| / |e'|) + 1 / 2 ^ 60 := by
    rw [abs_mul]
    have h1 : |r (E.blat / e) - E.blat / e| ≤ 1 / 2 ^ 53 * (1.0002 * (|E.blat| / |e'|)) + 1 / 2 ^ 200 :=
      k0.trans (add_le_add (mul_le_mul_of_nonneg_left E2 (by norm_num)) le_rfl)
    calc _ ≤ 91 * (1 / 2 ^ 53 * (1.0002 * (|E.blat| / |e'|)) + 1 / 2 ^ 200) :=
          mul_le_mul w1 h1 (abs_nonneg _) (by norm_num)
      _ ≤ _ := by
        generalize |E.blat| / |e'| = S at *
        norm_num
        linarith
  have v3 : |r (e - la) * r (E.blat / e) - (e' - la) * (E.blat / e')| ≤ 34900 / 2 ^ 46 * (|E.blat| / |e'|) + 1 / 2 ^ 60 := by
    rw [show r (e - la) * r (E.blat / e) - (e' - la) * (E.blat / e') = (r (e - la) * (E.blat / e) -
      (e' - la) * (E.blat / e')) + r (e - la) * (r (E.blat / e) - E.blat / e) by ring]
    refine (abs_add_le _ _).trans ?_
    generalize |E.blat| / |e'| = S at *
    norm_num at v v2 ⊢
    linarith
  have q0 : |r (e - la) * r (E.blat / e)| ≤ 91 := by
    have := abs_sub_abs_le_abs_sub (r (e - la) * r (E.blat / e)) ((e' - la) * (E.blat / e'))
    generalize |E.blat| / |e'| = S at *
    norm_num at v3
    linarith
  have q1 := err128 hr (q0.trans (by norm_num))
  have q2 : |r (r (e - la) * r (E.blat / e))| ≤ 92 := by
    have := abs_sub_abs_le_abs_sub (r (r (e - la) * r (E.blat / e))) (r (e - la) * r (E.blat / e))
    norm_num at q1
    linarith
  have q3 := err256 hr (x := E.blat - r (r (e - la) * r (E.blat / e))) ((abs_sub _ _).trans (by linarith))
  have ex : la * E.blat / e' = E.blat - (e' - la) * (E.blat / e') := by field_simp; ring
  rw [ex, show r (E.blat - r (r (e - la) * r (E.blat / e))) - (E.blat - (e' - la) * (E.blat / e')) =
    (r (E.blat - r (r (e - la) * r (E.blat / e))) - (E.blat - r (r (e - la) * r (E.blat / e)))) -
    ((r (r (e - la) * r (E.blat / e)) - r (e - la) * r (E.blat / e)) +
      (r (e - la) * r (E.blat / e) - (e' - la) * (E.blat / e'))) by ring]
  refine (abs_sub _ _).trans ((add_le_add le_rfl (abs_add_le _ _)).trans ?_)
  generalize |E.blat| / |e'| = S at *
  norm_num at q1 q3 v3 ⊢
  linarith

/-- The outcome of a call is that of `dualEntryD` on computed boundary latitudes near the exact ones. -/
theorem dual_one {O E : Rec} (hO : O.Valid) (hE : E.Valid) {lat mlt : ℝ} (rO : Round O mlt) (rE : Round E mlt)
    (hF : Rec.Fair O (O.rf mlt)) (hm0 : 0 ≤ mlt) (hm1 : mlt < 24) (h0 : 0 ≤ O.hem * lat) (h1 : O.hem * lat ≤ 90) :
    ∃ olat omlt o e lat' mlt', normalPt O lat mlt = .ok (lat', mlt', O.rf mlt) ∧
      |olat - lat'| ≤ (260 * ((90 - |O.blat|) / (O.r + O.rf mlt)) + 1) / 2 ^ 46 ∧
      |o - O.hem * (90 - farCross O mlt)| ≤ 34210 / 2 ^ 46 ∧ |e - E.hem * (90 - farCross E mlt)| ≤ 34210 / 2 ^ 46 ∧
      ∀ v m l, DualNormalD r L O E lat mlt v m l ↔ v = dualEntryD r O E lat olat (some o) (some e) ∧ m = omlt ∧ l = olat := by
  have hm : |mlt| ≤ 24 := by rw [abs_of_nonneg hm0]; exact hm1.le
  obtain ⟨olat, omlt, lat', mlt', u, n, -, -, hl, -⟩ := C186_normal_coord hr hL hO hF h0 h1 (hm.trans (by norm_num))
  obtain ⟨o, uo, ho⟩ := round_bound hr hL hO rO hm
  obtain ⟨e, ue, he⟩ := round_bound hr hL hE rE hm
  have w : wrapMltD r mlt = mlt := by
    unfold wrapMltD
    dsimp only
    rw [if_neg (not_lt.2 hm0), if_neg (not_le.2 hm1)]
  refine ⟨olat, omlt, o, e, lat', mlt', n, hl, ho, he, fun v m l => ?_⟩
  unfold DualNormalD
  rw [w]
  constructor
  · rintro ⟨ob, eb, a, b, c, rfl⟩
    obtain ⟨rfl, rfl⟩ := (u _ _).1 a
    rw [(uo _).1 c, (ue _).1 b]
    exact ⟨rfl, rfl, rfl⟩
  · rintro ⟨rfl, rfl, rfl⟩
    exact ⟨_, _, (u _ _).2 ⟨rfl, rfl⟩, (ue _).2 rfl, (uo _).2 rfl, rfl⟩

omit hr hL in
theorem hem_abs {h x : ℝ} (hh : h = 1 ∨ h = -1) (h0 : 0 ≤ h * x) : |x| = h * x := by
  rw [← abs_of_hem hh, abs_of_nonneg h0]

omit hr hL in
theorem hem_near {h x y a : ℝ} (hh : h = 1 ∨ h = -1) (hx : |x - y| ≤ a) : h * y - a ≤ h * x ∧ h * x ≤ h * y + a := by
  rw [← abs_of_hem hh, mul_sub] at hx
  obtain ⟨h1, h2⟩ := abs_le.1 hx
  constructor <;> linarith

/-- C201: a location at least `2 ^ -29` degrees poleward of both boundaries keeps its OCB latitude, which is within
`(260 S + 1) / 2 ^ 46` degrees of the exact one. -/
theorem C201_poleward_partial {O E : Rec} (hO : O.Valid) (hE : E.Valid) (hh : E.hem = O.hem) {lat mlt o' e' : ℝ}
    (rO : Round O mlt) (rE : Round E mlt) (hF : Rec.Fair O (O.rf mlt)) (ref : 1 ≤ 90 - |O.blat|) (hm0 : 0 ≤ mlt) (hm1 : mlt < 24)
    (h0 : 0 ≤ O.hem * lat) (h1 : O.hem * lat ≤ 90) (bo : boundaryLat O mlt = .ok (some o'))
    (be : boundaryLat E mlt = .ok (some e')) (io : 1 ≤ O.hem * o') (ie : 1 ≤ O.hem * e')
    (ho : O.hem * o' + 1 / 2 ^ 29 ≤ O.hem * lat) (he : O.hem * e' + 1 / 2 ^ 29 ≤ O.hem * lat) :
    ∃ v m lat' mlt', (∀ out m' l, DualNormalD r L O E lat mlt out m' l ↔ out = some v ∧ m' = m ∧ l = v) ∧
      normalPt O lat mlt = .ok (lat', mlt', O.rf mlt) ∧
      |v - lat'| ≤ (260 * ((90 - |O.blat|) / (O.r + O.rf mlt)) + 1) / 2 ^ 46 ∧ |O.blat| ≤ O.hem * v := by
  obtain ⟨olat, omlt, o, e, lat', mlt', n, hl, co, ce, u⟩ := dual_one hr hL hO hE rO rE hF hm0 hm1 h0 h1
  rw [rO.exact] at bo
  rw [rE.exact] at be
  have bo : O.hem * (90 - farCross O mlt) = o' := by injection bo with bo; injection bo
  have be : E.hem * (90 - farCross E mlt) = e' := by injection be with be; injection be
  rw [bo] at co
  rw [be] at ce
  obtain ⟨o1, o2⟩ := hem_near hO.hem co
  obtain ⟨e1, e2⟩ := hem_near hO.hem ce
  have hem2 : O.hem * O.hem = 1 := by rcases hO.hem with h | h <;> rw [h] <;> norm_num
  have far : O.hem * o' = 90 - farCross O mlt := by rw [← bo, ← mul_assoc, hem2, one_mul]
  have R0 : (0 : ℝ) < O.r + O.rf mlt := lt_of_lt_of_le (by norm_num) hF.rad
  have ins := rO.inside h1 (by unfold colat; norm_num at ho; linarith)
  obtain ⟨l, m, e', hc⟩ := C24_colatitude O hO lat mlt R0
  rw [n] at e'
  injection e' with e'
  rw [← (Prod.mk.inj e').1] at hc
  have hb : O.hem * O.blat = |O.blat| := (hem_abs hO.hem hO.blat).symm
  obtain ⟨l1, -⟩ := hem_near hO.hem hl
  have key : |O.blat| ≤ O.hem * olat := by
    refine le_trans ?_ l1
    unfold colat at hc ins
    have S1 : 1 / 128 ≤ (90 - |O.blat|) / (O.r + O.rf mlt) := by
      rw [div_le_div_iff₀ (by norm_num) R0]
      linarith [rO.mild.le]
    have e2 : O.hem * lat' = |O.blat| + ((O.r + O.rf mlt) - distCentre O lat mlt) * ((90 - |O.blat|) / (O.r + O.rf mlt)) := by
      have : distCentre O lat mlt * (90 - |O.blat|) / (O.r + O.rf mlt) =
          (distCentre O lat mlt - (O.r + O.rf mlt)) * ((90 - |O.blat|) / (O.r + O.rf mlt)) + (90 - |O.blat|) := by
        field_simp
        ring
      linarith
    have ins' : 1 / 2 ^ 37 ≤ O.r + O.rf mlt - distCentre O lat mlt := by
      norm_num at ho ins ⊢
      linarith
    rw [e2]
    generalize (90 - |O.blat|) / (O.r + O.rf mlt) = S at *
    have := mul_le_mul_of_nonneg_right ins' (by linarith : 0 ≤ S)
    norm_num at this S1 ⊢
    linarith
  have key2 : |O.blat| ≤ |olat| := by rwa [hem_abs hO.hem (le_trans (abs_nonneg _) key)]
  refine ⟨olat, omlt, lat', mlt', fun out m' l' => ?_, n, hl, key⟩
  rw [u]
  have la := hem_abs hO.hem h0
  have ao := hem_abs hO.hem (x := o) (by norm_num at o1; linarith)
  have ae := hem_abs hO.hem (x := e) (by norm_num at e1; linarith)
  have c1 : ¬|lat| < |o| := by rw [la, ao]; norm_num at o2 ho ⊢; linarith
  have c2 : ¬|lat| < |e| := by rw [la, ae]; norm_num at e2 he ⊢; linarith
  simp [dualEntryD, absLt, absGe, c1, c2, key2]

/-- C201: a location at least `2 ^ -29` degrees equatorward of the OCB and poleward of the EAB is put between the reference
latitudes, within `(140000 S + 4) / 2 ^ 46` degrees of the exact linear map (`S` its scaling). -/
theorem C201_auroral_partial {O E : Rec} (hO : O.Valid) (hE : E.Valid) (hh : E.hem = O.hem) {lat mlt o' e' : ℝ}
    (rO : Round O mlt) (rE : Round E mlt) (hF : Rec.Fair O (O.rf mlt)) (hm0 : 0 ≤ mlt) (hm1 : mlt < 24)
    (h0 : 0 ≤ O.hem * lat) (h1 : O.hem * lat ≤ 90) (bo : boundaryLat O mlt = .ok (some o'))
    (be : boundaryLat E mlt = .ok (some e')) (ie : 1 ≤ O.hem * e')
    (ho : O.hem * lat + 1 / 2 ^ 29 ≤ O.hem * o') (he : O.hem * e' + 1 / 2 ^ 29 ≤ O.hem * lat) :
    ∃ v m ol, (∀ out m' l, DualNormalD r L O E lat mlt out m' l ↔ out = some v ∧ m' = m ∧ l = ol) ∧
      |v - (O.blat - (o' - lat) * (O.blat - E.blat) / (o' - e'))| ≤
        (140000 * (|O.blat - E.blat| / |o' - e'|) + 4) / 2 ^ 46 := by
  obtain ⟨olat, omlt, o, e, lat', mlt', n, hl, co, ce, u⟩ := dual_one hr hL hO hE rO rE hF hm0 hm1 h0 h1
  rw [rO.exact] at bo
  rw [rE.exact] at be
  have bo : O.hem * (90 - farCross O mlt) = o' := by injection bo with bo; injection bo
  have be : E.hem * (90 - farCross E mlt) = e' := by injection be with be; injection be
  have hem2 : O.hem * O.hem = 1 := by rcases hO.hem with h | h <;> rw [h] <;> norm_num
  have far : O.hem * o' = 90 - farCross O mlt := by rw [← bo, ← mul_assoc, hem2, one_mul]
  rw [bo] at co
  rw [be] at ce
  obtain ⟨o1, o2⟩ := hem_near hO.hem co
  obtain ⟨e1, e2⟩ := hem_near hO.hem ce
  have la := hem_abs hO.hem h0
  have aO := hem_abs hO.hem (x := o') (by norm_num at ho; linarith)
  have aE := hem_abs hO.hem (x := e') (by linarith)
  have ao := hem_abs hO.hem (x := o) (by norm_num at o1 ho; linarith)
  have ae := hem_abs hO.hem (x := e) (by norm_num at e1; linarith)
  have c1 : |lat| < |o| := by rw [la, ao]; norm_num at o1 ho ⊢; linarith
  have c2 : |e| ≤ |lat| := by rw [la, ae]; norm_num at e2 he ⊢; linarith
  have f := rO.far.2.1
  have gw : |o' - lat| ≤ |o' - e'| ∧ 1 / 2 ^ 28 ≤ |o' - e'| := by
    rw [hem_abs hO.hem (x := o' - lat) (by rw [mul_sub]; norm_num at ho ⊢; linarith),
      hem_abs hO.hem (x := o' - e') (by rw [mul_sub]; norm_num at ho he ⊢; linarith), mul_sub, mul_sub]
    norm_num at ho he ⊢
    constructor <;> linarith
  have bE : 0 ≤ O.hem * E.blat := by rw [← hh]; exact hE.blat
  have K : |O.blat - E.blat| ≤ 90 := by
    rw [← abs_of_hem hO.hem, mul_sub, ← hem_abs hO.hem hO.blat, ← hem_abs hO.hem bE, abs_le]
    constructor <;> linarith [hO.pole, hE.pole, abs_nonneg O.blat, abs_nonneg E.blat]
  refine ⟨midD r O E lat o e, omlt, olat, fun out m' l' => ?_, mid_err hr co ce (by linarith) (by norm_num at ho he; linarith)
    (by linarith) gw.1 gw.2 K hO.pole.le⟩
  rw [u]
  simp [dualEntryD, absLt, absGe, c1, c2, not_lt.2 c2]

/-- C201: a location at least `2 ^ -29` degrees equatorward of the EAB is scaled towards the equator, within
`(35000 S + 2) / 2 ^ 46` degrees of the exact linear map (`S` its scaling). -/
theorem C201_equatorward_partial {O E : Rec} (hO : O.Valid) (hE : E.Valid) (hh : E.hem = O.hem) {lat mlt e' : ℝ}
    (rO : Round O mlt) (rE : Round E mlt) (hF : Rec.Fair O (O.rf mlt)) (hm0 : 0 ≤ mlt) (hm1 : mlt < 24)
    (h0 : 0 ≤ O.hem * lat) (be : boundaryLat E mlt = .ok (some e')) (ie : 1 ≤ O.hem * e')
    (he : O.hem * lat + 1 / 2 ^ 29 ≤ O.hem * e') :
    ∃ v m ol, (∀ out m' l, DualNormalD r L O E lat mlt out m' l ↔ out = some v ∧ m' = m ∧ l = ol) ∧
      |v - lat * E.blat / e'| ≤ (35000 * (|E.blat| / |e'|) + 2) / 2 ^ 46 := by
  rw [rE.exact] at be
  have be : E.hem * (90 - farCross E mlt) = e' := by injection be with be; injection be
  have hem2 : O.hem * O.hem = 1 := by rcases hO.hem with h | h <;> rw [h] <;> norm_num
  have far : O.hem * e' = 90 - farCross E mlt := by rw [← be, hh, ← mul_assoc, hem2, one_mul]
  have f := rE.far.2.1
  obtain ⟨olat, omlt, o, e, lat', mlt', n, hl, co, ce, u⟩ := dual_one hr hL hO hE rO rE hF hm0 hm1 h0
    (by norm_num at he; linarith)
  rw [be] at ce
  obtain ⟨e1, e2⟩ := hem_near hO.hem ce
  have la := hem_abs hO.hem h0
  have aE := hem_abs hO.hem (x := e') (by linarith)
  have ae := hem_abs hO.hem (x := e) (by norm_num at e1; linarith)
  have c2 : |lat| < |e| := by rw [la, ae]; norm_num at e1 he ⊢; linarith
  refine ⟨outD r E lat e, omlt, olat, fun out m' l' => ?_, out_err hr ce (by linarith) (by linarith)
    (by rw [la, aE]; norm_num at he; linarith) ?_ hE.pole.le⟩
  · rw [u]
    simp [dualEntryD, absLt, absGe, c2]
  · rw [aE, hem_abs hO.hem (x := e' - lat) (by rw [mul_sub]; norm_num at he; linarith), mul_sub]
    linarith

/-! ### C202: `revert_coord` -/

omit hL in
theorem revMid_err {O E : Rec} {b o e o' e' : ℝ} (ho : |o - o'| ≤ 34210 / 2 ^ 46) (he : |e - e'| ≤ 34210 / 2 ^ 46)
    (ho1 : |o'| ≤ 90) (he1 : |e'| ≤ 90) (hb : |O.blat - b| ≤ |O.blat - E.blat|) (hK : 1 / 2 ^ 20 ≤ |O.blat - E.blat|) :
    |revMidD r O E b o e - (o' - (O.blat - b) * (o' - e') / (O.blat - E.blat))| ≤ 103000 / 2 ^ 46 := by
  unfold revMidD
  obtain ⟨o1, o2⟩ := abs_le.1 ho
  obtain ⟨e1, e2⟩ := abs_le.1 he
  obtain ⟨a1, a2⟩ := abs_le.1 ho1
  obtain ⟨b1, b2⟩ := abs_le.1 he1
  have g0 := err256 hr (x := o - e) (abs_le.2 ⟨by norm_num at o1 e2; linarith, by norm_num at o2 e1; linarith⟩)
  have g1 : |r (o - e) - (o' - e')| ≤ 68421 / 2 ^ 46 := by
    rw [show r (o - e) - (o' - e') = (r (o - e) - (o - e)) + ((o - o') - (e - e')) by ring]
    refine (abs_add_le _ _).trans ((add_le_add le_rfl (abs_sub _ _)).trans ?_)
    norm_num at g0 ho he ⊢
    linarith
  have g2 : |o' - e'| ≤ 180 := abs_le.2 ⟨by linarith, by linarith⟩
  have o3 : |o| ≤ 91 := abs_le.2 ⟨by norm_num at o1; linarith, by norm_num at o2; linarith⟩
  have w0 := relT hr (O.blat - b)
  have k0 := relT hr (O.blat - E.blat)
  clear o1 o2 e1 e2 a1 a2 b1 b2 g0 he he1
  generalize r (O.blat - b) = W at *
  generalize r (O.blat - E.blat) = K' at *
  generalize r (o - e) = G at *
  generalize O.blat - b = w at *
  generalize O.blat - E.blat = K at *
  generalize o' - e' = g at *
  have aK : 0 < |K| := lt_of_lt_of_le (by norm_num) hK
  have Kn : K ≠ 0 := abs_pos.1 aK
  have tiny : (1 : ℝ) / 2 ^ 200 ≤ 1 / 2 ^ 100 * |K| := by
    have : (1 : ℝ) / 2 ^ 100 ≤ |K| := le_trans (by norm_num) hK
    calc (1 : ℝ) / 2 ^ 200 = 1 / 2 ^ 100 * (1 / 2 ^ 100) := by norm_num
      _ ≤ _ := mul_le_mul_of_nonneg_left this (by norm_num)
  have w1 : |W - w| ≤ 1.01 / 2 ^ 53 * |K| := by
    have := mul_le_mul_of_nonneg_left hb (by norm_num : (0 : ℝ) ≤ 1 / 2 ^ 53)
    norm_num at this tiny w0 ⊢
    linarith
  have k1 : |K' - K| ≤ 1.01 / 2 ^ 53 * |K| := by
    norm_num at tiny k0 ⊢
    linarith
  have K1 : 0.999 * |K| ≤ |K'| := by
    have := abs_sub_abs_le_abs_sub K K'
    rw [abs_sub_comm] at this
    norm_num at k1 ⊢
    linarith
  have aK' : 0 < |K'| := lt_of_lt_of_le (by positivity) K1
  have Kn' : K' ≠ 0 := abs_pos.1 aK'
  have t1 : |W / K' - w / K| ≤ 2.1 / 2 ^ 53 := by
    rw [show W / K' - w / K = ((W - w) * K - w * (K' - K)) / (K' * K) by field_simp; ring, abs_div, abs_mul K',
      div_le_iff₀ (mul_pos aK' aK)]
    refine (abs_sub _ _).trans ?_
    rw [abs_mul, abs_mul]
    calc _ ≤ 1.01 / 2 ^ 53 * |K| * |K| + |K| * (1.01 / 2 ^ 53 * |K|) :=
          add_le_add (mul_le_mul_of_nonneg_right w1 aK.le) (mul_le_mul hb k1 (abs_nonneg _) aK.le)
      _ ≤ 2.1 / 2 ^ 53 * (0.999 * |K| * |K|) := by nlinarith [mul_pos aK aK]
      _ ≤ _ := by
        apply mul_le_mul_of_nonneg_left _ (by norm_num)
        exact mul_le_mul_of_nonneg_right K1 aK.le
  have t2 : |w / K| ≤ 1 := by rw [abs_div, div_le_one aK]; exact hb
  have t3 : |W / K'| ≤ 1.001 := by
    have := abs_sub_abs_le_abs_sub (W / K') (w / K)
    norm_num at t1 ⊢
    linarith
  have G1 : |G| ≤ 181 := by
    have := abs_sub_abs_le_abs_sub G g
    norm_num at g1
    linarith
  have p1 : |W / K' * G| ≤ 182 := by
    rw [abs_mul]
    calc _ ≤ (1.001 : ℝ) * 181 := mul_le_mul t3 G1 (abs_nonneg _) (by norm_num)
      _ ≤ _ := by norm_num
  have p2 : |r (W * G) / K' - W / K' * G| ≤ 1.5 / 2 ^ 46 := by
    have := relT hr (W * G)
    rw [show r (W * G) / K' - W / K' * G = (r (W * G) - W * G) / K' by field_simp, abs_div, div_le_iff₀ aK']
    have e1 : |W * G| = |W / K' * G| * |K'| := by rw [← abs_mul]; congr 1; field_simp
    rw [e1] at this
    have e3 : 1 / 2 ^ 53 * (|W / K' * G| * |K'|) ≤ 1 / 2 ^ 53 * (182 * |K'|) :=
      mul_le_mul_of_nonneg_left (mul_le_mul_of_nonneg_right p1 aK'.le) (by norm_num)
    norm_num at this tiny e3 K1 ⊢
    linarith
  have p3 : |W / K' * G - w * g / K| ≤ 68500 / 2 ^ 46 := by
    rw [show W / K' * G - w * g / K = W / K' * (G - g) + (W / K' - w / K) * g by field_simp; ring]
    refine (abs_add_le _ _).trans ?_
    rw [abs_mul, abs_mul]
    have a := mul_le_mul t3 g1 (abs_nonneg _) (by norm_num : (0 : ℝ) ≤ 1.001)
    have b := mul_le_mul t1 g2 (abs_nonneg _) (by norm_num : (0 : ℝ) ≤ 2.1 / 2 ^ 53)
    norm_num at a b ⊢
    linarith
  have p4 : |r (W * G) / K'| ≤ 183 := by
    have := abs_sub_abs_le_abs_sub (r (W * G) / K') (W / K' * G)
    norm_num at p2
    linarith
  have q1 := err256 hr (p4.trans (by norm_num))
  have q2 : |r (r (W * G) / K')| ≤ 184 := by
    have := abs_sub_abs_le_abs_sub (r (r (W * G) / K')) (r (W * G) / K')
    norm_num at q1
    linarith
  have q3 := hr.err (x := o - r (r (W * G) / K')) (e := -44) (by norm_num) ((abs_sub _ _).trans (by norm_num; linarith))
  rw [show r (o - r (r (W * G) / K')) - (o' - w * g / K) = ((r (o - r (r (W * G) / K')) - (o - r (r (W * G) / K'))) + (o - o')) -
    ((r (r (W * G) / K') - r (W * G) / K') + ((r (W * G) / K' - W / K' * G) + (W / K' * G - w * g / K))) by ring]
  refine (abs_sub _ _).trans ((add_le_add (abs_add_le _ _) ((abs_add_le _ _).trans (add_le_add le_rfl (abs_add_le _ _)))).trans ?_)
  norm_num at q3 q1 p2 p3 ho ⊢
  linarith

omit hL in
theorem revOut_err {E : Rec} {b e e' : ℝ} (he : |e - e'| ≤ 34210 / 2 ^ 46) (he1 : |e'| ≤ 90) (hb : |b| < |E.blat|)
    (hE0 : 1 / 2 ^ 20 ≤ |E.blat|) (hE : |E.blat| ≤ 90) : |revOutD r E b e - b * e' / E.blat| ≤ 103000 / 2 ^ 46 := by
  unfold revOutD
  have aE : 0 < |E.blat| := lt_of_le_of_lt (abs_nonneg _) hb
  have En : E.blat ≠ 0 := abs_pos.1 aE
  have e1 : |e| ≤ 91 := by
    have := abs_sub_abs_le_abs_sub e e'
    norm_num at he
    linarith
  have w2 : |E.blat - b| ≤ 2 * |E.blat| := (abs_sub _ _).trans (by linarith)
  have w0 := relT hr (E.blat - b)
  have k0 := relT hr (e / E.blat)
  generalize r (E.blat - b) = W at *
  have ex : b * e' / E.blat = e' - (E.blat - b) / E.blat * e' := by field_simp; ring
  rw [ex]
  generalize hw : E.blat - b = w at *
  have t0 : |w / E.blat| ≤ 2 := by rw [abs_div, div_le_iff₀ aE]; exact w2
  have tiny : (1 : ℝ) / 2 ^ 200 ≤ 1 / 2 ^ 100 * |E.blat| := by
    have : (1 : ℝ) / 2 ^ 100 ≤ |E.blat| := le_trans (by norm_num) hE0
    calc (1 : ℝ) / 2 ^ 200 = 1 / 2 ^ 100 * (1 / 2 ^ 100) := by norm_num
      _ ≤ _ := mul_le_mul_of_nonneg_left this (by norm_num)
  have w3 : |W - w| ≤ 2.01 / 2 ^ 53 * |E.blat| := by
    have := mul_le_mul_of_nonneg_left w2 (by norm_num : (0 : ℝ) ≤ 1 / 2 ^ 53)
    norm_num at this tiny w0 ⊢
    linarith
  have w4 : |W| ≤ 2.01 * |E.blat| := by
    have := abs_sub_abs_le_abs_sub W w
    norm_num at w3 ⊢
    linarith
  have v1 : |W * (e / E.blat) - w / E.blat * e| ≤ 1.5 / 2 ^ 46 := by
    rw [show W * (e / E.blat) - w / E.blat * e = (W - w) / E.blat * e by field_simp, abs_mul, abs_div]
    have h1 : |W - w| / |E.blat| ≤ 2.01 / 2 ^ 53 := by rw [div_le_iff₀ aE]; exact w3
    calc _ ≤ 2.01 / 2 ^ 53 * (91 : ℝ) := mul_le_mul h1 e1 (abs_nonneg _) (by norm_num)
      _ ≤ _ := by norm_num
  have v2 : |W * (r (e / E.blat) - e / E.blat)| ≤ 1.5 / 2 ^ 46 := by
    rw [abs_mul]
    calc _ ≤ 2.01 * |E.blat| * (1 / 2 ^ 53 * |e / E.blat| + 1 / 2 ^ 200) := mul_le_mul w4 k0 (abs_nonneg _) (by positivity)
      _ = 2.01 / 2 ^ 53 * |e| + 2.01 / 2 ^ 200 * |E.blat| := by rw [abs_div]; field_simp
      _ ≤ _ := by norm_num; linarith
  have v3 : |w / E.blat * e - w / E.blat * e'| ≤ 68420 / 2 ^ 46 := by
    rw [← mul_sub, abs_mul]
    calc _ ≤ 2 * (34210 / 2 ^ 46 : ℝ) := mul_le_mul t0 he (abs_nonneg _) (by norm_num)
      _ = _ := by norm_num
  have v4 : |W * r (e / E.blat) - w / E.blat * e'| ≤ 68423 / 2 ^ 46 := by
    rw [show W * r (e / E.blat) - w / E.blat * e' = (W * (r (e / E.blat) - e / E.blat) + (W * (e / E.blat) - w / E.blat * e)) +
      (w / E.blat * e - w / E.blat * e') by ring]
    refine (abs_add_le _ _).trans ((add_le_add (abs_add_le _ _) le_rfl).trans ?_)
    norm_num at v1 v2 v3 ⊢
    linarith
  have v5 : |w / E.blat * e'| ≤ 180 := by
    rw [abs_mul]
    calc _ ≤ (2 : ℝ) * 90 := mul_le_mul t0 he1 (abs_nonneg _) (by norm_num)
      _ = _ := by norm_num
  have q0 : |W * r (e / E.blat)| ≤ 181 := by
    have := abs_sub_abs_le_abs_sub (W * r (e / E.blat)) (w / E.blat * e')
    norm_num at v4
    linarith
  have q1 := err256 hr (q0.trans (by norm_num))
  have q2 : |r (W * r (e / E.blat))| ≤ 182 := by
    have := abs_sub_abs_le_abs_sub (r (W * r (e / E.blat))) (W * r (e / E.blat))
    norm_num at q1
    linarith
  have q3 := hr.err (x := e - r (W * r (e / E.blat))) (e := -44) (by norm_num) ((abs_sub _ _).trans (by norm_num; linarith))
  rw [show r (e - r (W * r (e / E.blat))) - (e' - w / E.blat * e') = ((r (e - r (W * r (e / E.blat))) -
    (e - r (W * r (e / E.blat)))) + (e - e')) - ((r (W * r (e / E.blat)) - W * r (e / E.blat)) +
      (W * r (e / E.blat) - w / E.blat * e')) by ring]
  refine (abs_sub _ _).trans ((add_le_add (abs_add_le _ _) (abs_add_le _ _)).trans ?_)
  norm_num at q3 q1 v4 he ⊢
  linarith

/-- One call of `revert_coord` has one outcome. -/
theorem revert_one (O : Rec) (b bmlt corr : ℝ) : ∃ la m, ∀ x y, RevertD r L O b bmlt corr x y ↔ x = la ∧ y = m := by
  obtain ⟨h, u, -⟩ := xyHours_err hr hL (revertCompD r L L.cos O b bmlt corr) (revertCompD r L L.sin O b bmlt corr)
  exact ⟨_, h, fun x y => by unfold RevertD; rw [u]⟩

/-- C202: dual latitudes at and poleward of the reference latitude of the OCB are reverted by the OCB alone (C187 bounds
the errors of that). -/
theorem C202_poleward {O E : Rec} {b bmlt corr amlt : ℝ} (hb : |O.blat| ≤ |b|) (out : Option ℝ) (mlt : ℝ) :
    DualRevertD r L O E b bmlt corr amlt out mlt ↔ ∃ la, out = some la ∧ RevertD r L O b bmlt corr la mlt := by
  unfold DualRevertD
  simp only [if_pos hb]
  constructor
  · rintro ⟨la, m, h, rfl, rfl⟩
    exact ⟨la, rfl, h⟩
  · rintro ⟨la, rfl, h⟩
    exact ⟨la, mlt, h, rfl, rfl⟩

/-- C202: dual latitudes between the reference latitudes are reverted to within `103000 / 2 ^ 46` degrees of the exact linear
map, at the magnetic local time that was given. -/
theorem C202_auroral {O E : Rec} (hO : O.Valid) (hE : E.Valid) (hh : E.hem = O.hem) {b bmlt corr mlt o' e' : ℝ}
    (rO : Round O mlt) (rE : Round E mlt) (hm0 : 0 ≤ mlt) (hm1 : mlt < 24) (bo : boundaryLat O mlt = .ok (some o'))
    (be : boundaryLat E mlt = .ok (some e')) (io : |o'| ≤ 90) (ie : |e'| ≤ 90) (h0 : 0 ≤ O.hem * b) (h1 : |E.blat| ≤ |b|)
    (h2 : |b| < |O.blat|) (hK : 1 / 2 ^ 20 ≤ |O.blat - E.blat|) :
    ∃ v, (∀ out m, DualRevertD r L O E b bmlt corr mlt out m ↔ out = some v ∧ m = mlt) ∧
      |v - (o' - (O.blat - b) * (o' - e') / (O.blat - E.blat))| ≤ 103000 / 2 ^ 46 := by
  have hm : |mlt| ≤ 24 := by rw [abs_of_nonneg hm0]; exact hm1.le
  obtain ⟨o, uo, ho⟩ := round_bound hr hL hO rO hm
  obtain ⟨e, ue, he⟩ := round_bound hr hL hE rE hm
  obtain ⟨la, m, u⟩ := revert_one hr hL O b bmlt corr (L := L)
  rw [rO.exact] at bo
  rw [rE.exact] at be
  have bo : O.hem * (90 - farCross O mlt) = o' := by injection bo with bo; injection bo
  have be : E.hem * (90 - farCross E mlt) = e' := by injection be with be; injection be
  rw [bo] at ho
  rw [be] at he
  have w : wrapMltD r mlt = mlt := by
    unfold wrapMltD
    dsimp only
    rw [if_neg (not_lt.2 hm0), if_neg (not_le.2 hm1)]
  have bE : 0 ≤ O.hem * E.blat := by rw [← hh]; exact hE.blat
  have hb : |O.blat - b| ≤ |O.blat - E.blat| := by
    rw [hem_abs hO.hem hO.blat, hem_abs hO.hem h0] at h2
    rw [hem_abs hO.hem bE, hem_abs hO.hem h0] at h1
    rw [hem_abs hO.hem (x := O.blat - b) (by rw [mul_sub]; linarith), hem_abs hO.hem (x := O.blat - E.blat)
      (by rw [mul_sub]; linarith), mul_sub, mul_sub]
    linarith
  refine ⟨revMidD r O E b o e, fun out m' => ?_, revMid_err hr ho he io ie hb hK⟩
  unfold DualRevertD
  simp only [if_neg (not_le.2 h2), if_neg (not_lt.2 h1), w]
  constructor
  · rintro ⟨-, -, -, ob, eb, a1, a2, rfl, rfl⟩
    rw [(ue _).1 a1, (uo _).1 a2]
    exact ⟨rfl, rfl⟩
  · rintro ⟨rfl, rfl⟩
    exact ⟨la, m, (u _ _).2 ⟨rfl, rfl⟩, some o, some e, (ue _).2 rfl, (uo _).2 rfl, rfl, rfl⟩

/-- C202: dual latitudes equatorward of the reference latitude of the EAB are reverted to within `103000 / 2 ^ 46` degrees of
the exact linear map, at the magnetic local time that was given. -/
theorem C202_equatorward {O E : Rec} (hO : O.Valid) (hE : E.Valid) {b bmlt corr mlt e' : ℝ} (rO : Round O mlt) (rE : Round E mlt)
    (hm0 : 0 ≤ mlt) (hm1 : mlt < 24) (be : boundaryLat E mlt = .ok (some e')) (ie : |e'| ≤ 90) (h1 : |b| < |E.blat|)
    (hEO : |E.blat| ≤ |O.blat|) (hE0 : 1 / 2 ^ 20 ≤ |E.blat|) :
    ∃ v, (∀ out m, DualRevertD r L O E b bmlt corr mlt out m ↔ out = some v ∧ m = mlt) ∧
      |v - b * e' / E.blat| ≤ 103000 / 2 ^ 46 := by
  have hm : |mlt| ≤ 24 := by rw [abs_of_nonneg hm0]; exact hm1.le
  obtain ⟨o, uo, -⟩ := round_bound hr hL hO rO hm
  obtain ⟨e, ue, he⟩ := round_bound hr hL hE rE hm
  obtain ⟨la, m, u⟩ := revert_one hr hL O b bmlt corr (L := L)
  rw [rE.exact] at be
  have be : E.hem * (90 - farCross E mlt) = e' := by injection be with be; injection be
  rw [be] at he
  have w : wrapMltD r mlt = mlt := by
    unfold wrapMltD
    dsimp only
    rw [if_neg (not_lt.2 hm0), if_neg (not_le.2 hm1)]
  refine ⟨revOutD r E b e, fun out m' => ?_, revOut_err hr he ie h1 hE0 hE.pole.le⟩
  unfold DualRevertD
  simp only [if_neg (not_le.2 (lt_of_lt_of_le h1 hEO)), if_pos h1, w]
  constructor
  · rintro ⟨-, -, -, ob, eb, a1, a2, rfl, rfl⟩
    rw [(ue _).1 a1]
    exact ⟨rfl, rfl⟩
  · rintro ⟨rfl, rfl⟩
    exact ⟨la, m, (u _ _).2 ⟨rfl, rfl⟩, some o, some e, (ue _).2 rfl, (uo _).2 rfl, rfl, rfl⟩

/-- Equatorward of the OCB the radius correction is not used. -/
theorem corr_unused {O E : Rec} {v m mlt : ℝ} (hv : |v| < |O.blat|) (c c' : ℝ) (out : Option ℝ) (m' : ℝ) :
    DualRevertD r L O E v m c mlt out m' ↔ DualRevertD r L O E v m c' mlt out m' := by
  obtain ⟨la1, m1, u1⟩ := revert_one hr hL O v m c (L := L)
  obtain ⟨la2, m2, u2⟩ := revert_one hr hL O v m c' (L := L)
  unfold DualRevertD
  simp only [if_neg (not_le.2 hv)]
  exact ⟨fun ⟨_, _, _, h⟩ => ⟨la2, m2, (u2 _ _).2 ⟨rfl, rfl⟩, h⟩, fun ⟨_, _, _, h⟩ => ⟨la1, m1, (u1 _ _).2 ⟨rfl, rfl⟩, h⟩⟩

/-! ### C203: round trips -/

/-- C203: a location at least `2 ^ -29` degrees poleward of both boundaries comes back to its latitude within
`(264 S + 278) / 2 ^ 46` degrees (`S` the scaling from OCB to magnetic degrees). -/
theorem C203_poleward {O E : Rec} (hO : O.Valid) (hE : E.Valid) (hh : E.hem = O.hem) {lat mlt o' e' : ℝ}
    (rO : Round O mlt) (rE : Round E mlt) (hF : Rec.Fair O (O.rf mlt)) (ref : 1 ≤ 90 - |O.blat|) (hm0 : 0 ≤ mlt) (hm1 : mlt < 24)
    (h0 : 0 ≤ O.hem * lat) (h1 : O.hem * lat ≤ 90) (bo : boundaryLat O mlt = .ok (some o'))
    (be : boundaryLat E mlt = .ok (some e')) (io : 1 ≤ O.hem * o') (ie : 1 ≤ O.hem * e')
    (ho : O.hem * o' + 1 / 2 ^ 29 ≤ O.hem * lat) (he : O.hem * e' + 1 / 2 ^ 29 ≤ O.hem * lat) :
    ∃ v m la ml, (∀ out m' l, DualNormalD r L O E lat mlt out m' l ↔ out = some v ∧ m' = m ∧ l = v) ∧
      (∀ out m', DualRevertD r L O E v m (O.rf mlt) mlt out m' ↔ out = some la ∧ m' = ml) ∧
      |la - lat| ≤ (264 * ((O.r + O.rf mlt) / colat O.hem O.blat) + 278) / 2 ^ 46 := by
  obtain ⟨v, m, lat', mlt', u, n, hl, hv⟩ := C201_poleward_partial hr hL hO hE hh rO rE hF ref hm0 hm1 h0 h1 bo be io ie ho he
  obtain ⟨ob, eb, hn, -⟩ := (u _ _ _).2 ⟨rfl, rfl, rfl⟩
  have v0 := (abs_nonneg _).trans hv
  obtain ⟨la, ml, w, -, -, hb, -⟩ := C188_round_trip hr hL hO hF h0 h1
    (by rw [abs_of_nonneg hm0]; linarith) hn v0
  refine ⟨v, m, la, ml, u, fun out m' => ?_, hb⟩
  rw [C202_poleward hr hL (by rwa [hem_abs hO.hem v0])]
  constructor
  · rintro ⟨l, rfl, h⟩
    obtain ⟨rfl, rfl⟩ := (w _ _).1 h
    exact ⟨rfl, rfl⟩
  · rintro ⟨rfl, rfl⟩
    exact ⟨la, rfl, (w _ _).2 ⟨rfl, rfl⟩⟩

/-- C203: a location at least `2 ^ -27` degrees from both boundaries and between them comes back to its latitude within
`(243000 + 4 S) / 2 ^ 46` degrees (`S` the scaling back to magnetic degrees), and to its local time. -/
theorem C203_auroral {O E : Rec} (hO : O.Valid) (hE : E.Valid) (hh : E.hem = O.hem) {lat mlt o' e' : ℝ}
    (rO : Round O mlt) (rE : Round E mlt) (hF : Rec.Fair O (O.rf mlt)) (hm0 : 0 ≤ mlt) (hm1 : mlt < 24)
    (h0 : 0 ≤ O.hem * lat) (h1 : O.hem * lat ≤ 90) (bo : boundaryLat O mlt = .ok (some o'))
    (be : boundaryLat E mlt = .ok (some e')) (ie : 1 ≤ O.hem * e')
    (ho : O.hem * lat + 1 / 2 ^ 27 ≤ O.hem * o') (he : O.hem * e' + 1 / 2 ^ 27 ≤ O.hem * lat)
    (hK : |E.blat| + 1 ≤ |O.blat|) :
    ∃ v m ol la, (∀ out m' l, DualNormalD r L O E lat mlt out m' l ↔ out = some v ∧ m' = m ∧ l = ol) ∧
      (∀ c out m', DualRevertD r L O E v m c mlt out m' ↔ out = some la ∧ m' = mlt) ∧
      |la - lat| ≤ (243000 + 4 * (|o' - e'| / |O.blat - E.blat|)) / 2 ^ 46 := by
  obtain ⟨v, m, ol, u, hv⟩ := C201_auroral_partial hr hL hO hE hh rO rE hF hm0 hm1 h0 h1 bo be ie
    (by norm_num at ho ⊢; linarith) (by norm_num at he ⊢; linarith)
  have hem2 : O.hem * O.hem = 1 := by rcases hO.hem with h | h <;> rw [h] <;> norm_num
  have bE : 0 ≤ O.hem * E.blat := by rw [← hh]; exact hE.blat
  have hOb := hem_abs hO.hem hO.blat
  have hEb := hem_abs hO.hem bE
  have fo : O.hem * o' ≤ 90 := by
    have := rO.far.2.1
    rw [rO.exact] at bo
    have bo : O.hem * (90 - farCross O mlt) = o' := by injection bo with bo; injection bo
    rw [← bo, ← mul_assoc, hem2]
    linarith
  have aO := hem_abs hO.hem (x := o') (by norm_num at ho; linarith)
  have aE := hem_abs hO.hem (x := e') (by linarith)
  have aK := hem_abs hO.hem (x := O.blat - E.blat) (by rw [mul_sub]; linarith)
  have ag := hem_abs hO.hem (x := o' - e') (by rw [mul_sub]; norm_num at ho he ⊢; linarith)
  have g0 : 0 < |o' - e'| := by rw [ag, mul_sub]; norm_num at ho he ⊢; linarith
  have K1 : 1 ≤ |O.blat - E.blat| := by rw [aK, mul_sub]; linarith
  have hS : (O.blat - E.blat) / (o' - e') = |O.blat - E.blat| / |o' - e'| := by
    rw [aK, ag, mul_div_mul_left]
    rcases hO.hem with h | h <;> rw [h] <;> norm_num
  have S1 : 1 / 90 ≤ |O.blat - E.blat| / |o' - e'| := by
    rw [div_le_div_iff₀ (by norm_num) g0]
    rw [ag, mul_sub]
    linarith
  have inv : |o' - e'| / |O.blat - E.blat| = 1 / (|O.blat - E.blat| / |o' - e'|) := by rw [one_div_div]
  have gn : o' - e' ≠ 0 := abs_pos.1 g0
  have Kn : O.blat - E.blat ≠ 0 := abs_pos.1 (by linarith)
  rw [mul_div_assoc, hS] at hv
  obtain ⟨v1, v2⟩ := hem_near hO.hem hv
  rw [mul_sub, show O.hem * ((o' - lat) * (|O.blat - E.blat| / |o' - e'|)) = (O.hem * o' - O.hem * lat) *
    (|O.blat - E.blat| / |o' - e'|) by ring] at v1 v2
  have top : (O.hem * o' - O.hem * e') * (|O.blat - E.blat| / |o' - e'|) = O.hem * O.blat - O.hem * E.blat := by
    rw [← mul_sub, ← ag, ← mul_sub, ← aK]
    field_simp
  have S0 : 0 < |O.blat - E.blat| / |o' - e'| := by linarith
  generalize hSS : |O.blat - E.blat| / |o' - e'| = S at *
  have m1 : 1 / 2 ^ 27 * S ≤ (O.hem * o' - O.hem * lat) * S := mul_le_mul_of_nonneg_right (by linarith) S0.le
  have m2 : 1 / 2 ^ 27 * S ≤ (O.hem * lat - O.hem * e') * S := mul_le_mul_of_nonneg_right (by linarith) S0.le
  have vlt : O.hem * v < |O.blat| := by
    rw [hOb]
    norm_num at v2 m1 S1
    linarith
  have vge : |E.blat| ≤ O.hem * v := by
    rw [hEb]
    norm_num at v1 m2 S1
    linarith
  have v0 := (abs_nonneg _).trans vge
  have av := hem_abs hO.hem v0
  have both : ∃ la, (∀ c out m', DualRevertD r L O E v m c mlt out m' ↔ out = some la ∧ m' = mlt) ∧
      |la - (o' - (O.blat - v) * (o' - e') / (O.blat - E.blat))| ≤ 103000 / 2 ^ 46 := by
    have key := fun c => C202_auroral hr hL hO hE hh (b := v) (bmlt := m) (corr := c) rO rE hm0 hm1 bo be (by linarith)
      (by norm_num at ho he; linarith) v0 (by linarith) (by linarith) (by norm_num; linarith)
    obtain ⟨la, w, hla⟩ := key 0
    refine ⟨la, fun c out m' => ?_, hla⟩
    rw [corr_unused hr hL (by linarith) c 0, w]
  obtain ⟨la, w, hla⟩ := both
  refine ⟨v, m, ol, la, u, w, ?_⟩
  have hi : (o' - e') / (O.blat - E.blat) = 1 / S := by rw [← hS, one_div_div]
  rw [mul_div_assoc, hi] at hla
  rw [inv, show la - lat = (la - (o' - (O.blat - v) * (1 / S))) +
    (v - (O.blat - (o' - lat) * S)) * (1 / S) by field_simp; ring]
  refine (abs_add_le _ _).trans ?_
  rw [abs_mul, abs_of_pos (one_div_pos.2 S0)]
  have f := mul_le_mul_of_nonneg_right hv (one_div_pos.2 S0).le
  have e : (140000 * S + 4) / 2 ^ 46 * (1 / S) = (140000 + 4 * (1 / S)) / 2 ^ 46 := by field_simp
  rw [e] at f
  generalize 1 / S = q at *
  norm_num at f hla ⊢
  linarith

/-- C203: a location at least `2 ^ -27` degrees equatorward of the EAB comes back to its latitude within
`(138000 + 2 S) / 2 ^ 46` degrees (`S` the scaling back to magnetic degrees), and to its local time. -/
theorem C203_equatorward {O E : Rec} (hO : O.Valid) (hE : E.Valid) (hh : E.hem = O.hem) {lat mlt e' : ℝ}
    (rO : Round O mlt) (rE : Round E mlt) (hF : Rec.Fair O (O.rf mlt)) (hm0 : 0 ≤ mlt) (hm1 : mlt < 24)
    (h0 : 0 ≤ O.hem * lat) (be : boundaryLat E mlt = .ok (some e')) (ie : 1 ≤ O.hem * e')
    (he : O.hem * lat + 1 / 2 ^ 27 ≤ O.hem * e') (hEO : |E.blat| ≤ |O.blat|) (hE1 : 1 ≤ |E.blat|) :
    ∃ v m ol la, (∀ out m' l, DualNormalD r L O E lat mlt out m' l ↔ out = some v ∧ m' = m ∧ l = ol) ∧
      (∀ c out m', DualRevertD r L O E v m c mlt out m' ↔ out = some la ∧ m' = mlt) ∧
      |la - lat| ≤ (138000 + 2 * (|e'| / |E.blat|)) / 2 ^ 46 := by
  obtain ⟨v, m, ol, u, hv⟩ := C201_equatorward_partial hr hL hO hE hh rO rE hF hm0 hm1 h0 be ie
    (by norm_num at he ⊢; linarith)
  have hem2 : O.hem * O.hem = 1 := by rcases hO.hem with h | h <;> rw [h] <;> norm_num
  have bE : 0 ≤ O.hem * E.blat := by rw [← hh]; exact hE.blat
  have hEb := hem_abs hO.hem bE
  have aE := hem_abs hO.hem (x := e') (by linarith)
  have fe : O.hem * e' ≤ 90 := by
    have := rE.far.2.1
    rw [rE.exact] at be
    have be : E.hem * (90 - farCross E mlt) = e' := by injection be with be; injection be
    rw [← be, hh, ← mul_assoc, hem2]
    linarith
  have g0 : 0 < |e'| := by linarith
  have hS : E.blat / e' = |E.blat| / |e'| := by
    rw [aE, hEb, mul_div_mul_left]
    rcases hO.hem with h | h <;> rw [h] <;> norm_num
  have S1 : 1 / 90 ≤ |E.blat| / |e'| := by
    rw [div_le_div_iff₀ (by norm_num) g0]
    linarith
  have inv : |e'| / |E.blat| = 1 / (|E.blat| / |e'|) := by rw [one_div_div]
  have gn : e' ≠ 0 := abs_pos.1 g0
  have Kn : E.blat ≠ 0 := abs_pos.1 (by linarith)
  rw [mul_div_assoc, hS] at hv
  obtain ⟨v1, v2⟩ := hem_near hO.hem hv
  rw [← mul_assoc] at v1 v2
  have top : O.hem * e' * (|E.blat| / |e'|) = |E.blat| := by
    rw [← aE]
    field_simp
  have S0 : 0 < |E.blat| / |e'| := by linarith
  have hi : e' / E.blat = 1 / (|E.blat| / |e'|) := by rw [← hS, one_div_div]
  have S2 : |E.blat| / |e'| ≤ |E.blat| := div_le_self (abs_nonneg _) (by linarith)
  generalize |E.blat| / |e'| = S at *
  have m1 : 1 / 2 ^ 27 * S ≤ (O.hem * e' - O.hem * lat) * S := mul_le_mul_of_nonneg_right (by linarith) S0.le
  have m2 : 0 ≤ O.hem * lat * S := mul_nonneg h0 S0.le
  have vlt : |v| < |E.blat| := by
    rw [← abs_of_hem hO.hem, abs_lt]
    norm_num at v1 v2 m1 S1
    constructor <;> linarith
  have both : ∃ la, (∀ c out m', DualRevertD r L O E v m c mlt out m' ↔ out = some la ∧ m' = mlt) ∧
      |la - v * e' / E.blat| ≤ 103000 / 2 ^ 46 := by
    obtain ⟨la, w, hla⟩ := C202_equatorward hr hL hO hE (b := v) (bmlt := m) (corr := 0) rO rE hm0 hm1 be (by linarith)
      vlt hEO (by norm_num; linarith)
    refine ⟨la, fun c out m' => ?_, hla⟩
    rw [corr_unused hr hL (lt_of_lt_of_le vlt hEO) c 0, w]
  obtain ⟨la, w, hla⟩ := both
  refine ⟨v, m, ol, la, u, w, ?_⟩
  rw [mul_div_assoc, hi] at hla
  rw [inv, show la - lat = (la - v * (1 / S)) + (v - lat * S) * (1 / S) by field_simp; ring]
  refine (abs_add_le _ _).trans ?_
  rw [abs_mul, abs_of_pos (one_div_pos.2 S0)]
  have f := mul_le_mul_of_nonneg_right hv (one_div_pos.2 S0).le
  have e : (35000 * S + 2) / 2 ^ 46 * (1 / S) = (35000 + 2 * (1 / S)) / 2 ^ 46 := by field_simp
  rw [e] at f
  generalize 1 / S = q at *
  norm_num at f hla ⊢
  linarith

end Dual

/-! ### A boundary location without a region -/

/-- A boundary of a little more than ten degrees around the pole. -/
noncomputable def tinyRec : Rec := ⟨0, 0, 10 + 21 / 2 ^ 49, fun _ => 0, 1, 74⟩

/-- An equatorward boundary of twenty degrees around the pole. -/
noncomputable def wideRec : Rec := ⟨0, 0, 20, fun _ => 0, 1, 64⟩

section Refuted

variable {r : ℝ → ℝ} (hr : Nearest r)

include hr

omit hr in
theorem sqrt_near {P X : ℝ} (X0 : 8 ≤ X) {a b : ℝ} (h : |P - X ^ 2| ≤ a) (hb : a ≤ b * (2 * X - 1)) (ha : a ≤ 1) :
    |√P - X| ≤ b := by
  obtain ⟨h1, h2⟩ := abs_le.1 h
  have P0 : (X - 1) ^ 2 ≤ P := by nlinarith
  have s := Real.sq_sqrt (le_trans (sq_nonneg _) P0)
  have s0 : X - 1 ≤ √P := Real.le_sqrt_of_sq_le P0
  have e : (√P - X) * (√P + X) = P - X ^ 2 := by linear_combination s
  rw [← e, abs_mul, abs_of_nonneg (by linarith : 0 ≤ √P + X)] at h
  have h3 : |√P - X| * (2 * X - 1) ≤ b * (2 * X - 1) :=
    (mul_le_mul_of_nonneg_left (by linarith) (abs_nonneg _)).trans (h.trans hb)
  exact le_of_mul_le_mul_right h3 (by linarith)

theorem hr2rad_zero : ∀ th, Hr2rad r 0 (2 * piD) (.ok th) → th = 0 := by
  intro th h
  have p0 : 3 < piD := by unfold piD; norm_num
  rw [hr2rad_full hr, zero_mul, hr.keep isDouble_zero, zero_div, hr.keep isDouble_zero] at h
  unfold FixRange at h
  rw [if_neg (by linarith)] at h
  dsimp only [Option.getD] at h
  rw [sub_zero, hr.keep d2pi, if_neg (by linarith)] at h
  obtain ⟨y, z, h1, h2, h3⟩ := h
  injection h3 with h3
  cases h1 with
  | done _ =>
    cases h2 with
    | done _ => exact h3
    | step c _ => simp at c
  | step c _ =>
    have := of_decide_eq_true c
    linarith

variable {L : Lib} (hL : L.Ok r)

include hL

/-- The computed latitude of the small boundary at midnight. -/
theorem tiny_bound (o : Option ℝ) (h : BoundLatD r L tinyRec 0 o) : o = some (80 - 3 / 2 ^ 46) := by
  obtain ⟨phi, del, -, -, rfl⟩ := h
  have k1 : r (10 + 21 / 2 ^ 49) = 10 + 21 / 2 ^ 49 := near_grid hr (e := -49) (k := 10 * 2 ^ 49 + 21) (by norm_num)
    (by push_cast; norm_num) (by norm_num [abs_of_pos]) (by norm_num) (by norm_num)
  have k2 : r (90 - (10 + 21 / 2 ^ 49)) = 80 - 3 / 2 ^ 46 := near_grid hr (e := -46) (k := 80 * 2 ^ 46 - 3) (by norm_num)
    (by push_cast; norm_num) (by norm_num [abs_of_pos]) (by norm_num) (by norm_num [abs_of_pos, abs_of_neg])
  have e1 := err128 hr (x := (10 + 21 / 2 ^ 49) ^ 2) (by norm_num [abs_of_pos])
  have k3 : r (√(r ((10 + 21 / 2 ^ 49) ^ 2))) = 10 + 21 / 2 ^ 49 := by
    have s := sqrt_near (X := 10 + 21 / 2 ^ 49) (by norm_num) e1 (b := 1 / 2 ^ 51) (by norm_num) (by norm_num)
    obtain ⟨s1, s2⟩ := abs_le.1 s
    refine near_grid hr (e := -49) (k := 10 * 2 ^ 49 + 21) (by norm_num) (by push_cast; norm_num) (by norm_num [abs_of_pos]) ?_ ?_
    · norm_num at s1 ⊢
      linarith
    · rw [abs_sub_comm]
      refine lt_of_le_of_lt s (by norm_num)
  have n0 : 0 ≤ r ((10 + 21 / 2 ^ 49 : ℝ) ^ 2) := hr.nonneg (by positivity)
  have k0 := hr.keep isDouble_zero
  have kk := hr.keep (hr.mem ((10 + 21 / 2 ^ 49 : ℝ) ^ 2))
  have z2 : (0 : ℝ) ^ 2 = 0 := by norm_num
  unfold boundRadD tinyRec
  simp only [add_zero, zero_mul, k0, k1, z2, sub_zero, kk, hL.sqrt _ n0, k3, zero_add, not_lt.2 n0, if_false, one_mul]
  rw [if_neg (by norm_num), Option.map_some, k2]

/-- The computed OCB latitude of that location. -/
theorem tiny_normal (c0 : L.cos 0 = 1) (s0 : L.sin 0 = 0) {a b : ℝ} (h : NormalD r L tinyRec (80 - 3 / 2 ^ 46) 0 a b) :
    a = 74 - 1 / 2 ^ 46 := by
  obtain ⟨th, h1, rfl, -⟩ := h
  rw [hr2rad_zero hr th h1]
  have z := hr.keep isDouble_zero
  have k1 : r (10 + 21 / 2 ^ 49) = 10 + 21 / 2 ^ 49 := near_grid hr (e := -49) (k := 10 * 2 ^ 49 + 21) (by norm_num)
    (by push_cast; norm_num) (by norm_num [abs_of_pos]) (by norm_num) (by norm_num)
  have k2 : r (10 + 3 / 2 ^ 46) = 10 + 3 / 2 ^ 46 := near_grid hr (e := -49) (k := 10 * 2 ^ 49 + 24) (by norm_num)
    (by push_cast; norm_num) (by norm_num [abs_of_pos]) (by norm_num) (by norm_num)
  have d16 : IsDouble 16 := by exact_mod_cast isDouble_nat (n := 16) (by norm_num)
  have k3 : r (16 / (10 + 21 / 2 ^ 49)) = 7205759403792767 / 2 ^ 52 := near_grid hr (e := -52) (k := 7205759403792767) (by norm_num)
    (by push_cast; norm_num) (by norm_num [abs_of_pos]) (by norm_num) (by norm_num [abs_of_pos, abs_of_neg, abs_lt])
  have k4 : r ((10 + 3 / 2 ^ 46) * (7205759403792767 / 2 ^ 52)) = 16 + 3 / 2 ^ 48 := near_grid hr (e := -48) (k := 2 ^ 52 + 3)
    (by norm_num) (by push_cast; norm_num) (by norm_num [abs_of_pos]) (by norm_num) (by norm_num [abs_of_pos, abs_of_neg, abs_lt])
  have hx : normalCompD r L L.cos tinyRec (80 - 3 / 2 ^ 46) 0 0 = 16 + 3 / 2 ^ 48 := by
    have e1 : (90 : ℝ) - 1 * (80 - 3 / 2 ^ 46) = 10 + 3 / 2 ^ 46 := by norm_num
    have e2 : (90 : ℝ) - |74| = 16 := by norm_num [abs_of_pos]
    unfold normalCompD tinyRec
    simp only [c0, add_zero, zero_mul, e1, e2, z, k1, k2, k3, mul_one, sub_zero, hr.keep d16, k4]
  have hy : normalCompD r L L.sin tinyRec (80 - 3 / 2 ^ 46) 0 0 = 0 := by
    unfold normalCompD tinyRec
    simp only [s0, mul_zero, zero_mul, z, sub_zero]
  rw [hx, hy]
  have e1 := hr.err (x := (16 + 3 / 2 ^ 48 : ℝ) ^ 2) (e := -44) (by norm_num) (by norm_num [abs_of_pos])
  have k5 : r (√(r ((16 + 3 / 2 ^ 48) ^ 2))) = 16 + 3 / 2 ^ 48 := by
    have s := sqrt_near (X := 16 + 3 / 2 ^ 48) (by norm_num) e1 (b := 3 / 2 ^ 51) (by norm_num) (by norm_num)
    obtain ⟨s1, s2⟩ := abs_le.1 s
    refine near_grid hr (e := -48) (k := 2 ^ 52 + 3) (by norm_num) (by push_cast; norm_num) (by norm_num [abs_of_pos]) ?_ ?_
    · norm_num at s1 ⊢
      linarith
    · rw [abs_sub_comm]
      refine lt_of_le_of_lt s (by norm_num)
  have k6 : r (90 - (16 + 3 / 2 ^ 48)) = 74 - 1 / 2 ^ 46 := near_grid hr (e := -46) (k := 74 * 2 ^ 46 - 1) (by norm_num)
    (by push_cast; norm_num) (by norm_num [abs_of_pos]) (by norm_num) (by norm_num [abs_of_pos, abs_of_neg])
  have n0 : 0 ≤ r ((16 + 3 / 2 ^ 48 : ℝ) ^ 2) := hr.nonneg (by positivity)
  have kk := hr.keep (hr.mem ((16 + 3 / 2 ^ 48 : ℝ) ^ 2))
  have z2 : (0 : ℝ) ^ 2 = 0 := by norm_num
  unfold latOfD
  simp only [z2, z, add_zero, kk, hL.sqrt _ n0, k5, k6]
  simp [tinyRec]

omit hr hL in
theorem tiny_fair : tinyRec.Valid ∧ Rec.Fair tinyRec (tinyRec.rf 0) ∧ Round tinyRec 0 := by
  refine ⟨⟨.inl rfl, by norm_num [tinyRec], by norm_num [tinyRec, abs_of_pos]⟩, ?_, ?_⟩
  · constructor <;> norm_num [tinyRec, abs_of_pos]
  · constructor
    · constructor <;> norm_num [tinyRec, abs_of_pos]
    · norm_num [tinyRec]

omit hr hL in
theorem wide_fair : wideRec.Valid ∧ Round wideRec 0 := by
  refine ⟨⟨.inl rfl, by norm_num [wideRec], by norm_num [wideRec, abs_of_pos]⟩, ?_⟩
  · constructor
    · constructor <;> norm_num [wideRec, abs_of_pos]
    · norm_num [wideRec]

/-- C201 refuted: not every location belongs to a region.  The computed latitude of the OCB at midnight, given back to
`normal_coord`, is NaN, for every rounding to the nearest and every library in which the cosine and sine of zero are 1
and 0: it is not equatorward of the OCB, and its OCB latitude is a unit in the last place below the reference latitude. -/
theorem C201_boundary_refuted (c0 : L.cos 0 = 1) (s0 : L.sin 0 = 0) : ∃ lat, BoundLatD r L tinyRec 0 (some lat) ∧
    (∃ out m l, DualNormalD r L tinyRec wideRec lat 0 out m l) ∧
    ∀ out m l, DualNormalD r L tinyRec wideRec lat 0 out m l → out = none ∧ l = 74 - 1 / 2 ^ 46 := by
  obtain ⟨v1, v2, v3⟩ := tiny_fair
  obtain ⟨w1, w3⟩ := wide_fair
  obtain ⟨b, ub, -⟩ := round_bound hr hL v1 v3 (by norm_num)
  obtain ⟨e', ue, ne⟩ := round_bound hr hL w1 w3 (by norm_num)
  have hb := (ub _).2 rfl
  have eb := tiny_bound hr hL _ hb
  injection eb with eb
  rw [eb] at hb
  obtain ⟨olat, omlt, o, e, lat', mlt', n, hl, co, ce, u⟩ := dual_one hr hL v1 w1 v3 w3 v2 le_rfl (by norm_num)
    (lat := 80 - 3 / 2 ^ 46) (by norm_num [tinyRec]) (by norm_num [tinyRec])
  have hd := (u _ _ _).2 ⟨rfl, rfl, rfl⟩
  refine ⟨_, hb, ⟨_, _, _, hd⟩, ?_⟩
  rintro out m l ⟨ob, eb', a1, a2, a3, rfl⟩
  have w : wrapMltD r 0 = 0 := by unfold wrapMltD; simp
  rw [w] at a2 a3
  have ho := tiny_bound hr hL _ a3
  have hl := tiny_normal hr hL c0 s0 a1
  have fc : farCross wideRec 0 = 20 := by
    unfold farCross halfChord2
    simp only [wideRec, zero_mul, zero_add, add_zero]
    rw [show (20 : ℝ) ^ 2 - 0 ^ 2 = 20 ^ 2 by norm_num, Real.sqrt_sq (by norm_num)]
  have he := (ue _).1 a2
  have e70 : |e' - 70| ≤ 1 := by
    rw [fc] at ne
    norm_num [wideRec] at ne ⊢
    linarith
  obtain ⟨g1, g2⟩ := abs_le.1 e70
  refine ⟨?_, hl⟩
  have c1 : ¬|(80 : ℝ) - 3 / 2 ^ 46| < |e'| := by
    rw [abs_of_pos (by linarith : 0 < e'), abs_of_pos (by norm_num)]
    norm_num
    linarith
  have c2 : ¬|(74 : ℝ)| ≤ |74 - 1 / 2 ^ 46| := by norm_num [abs_of_pos]
  have c3 : tinyRec.blat = 74 := rfl
  rw [ho, he, hl]
  simp only [dualEntryD, absLt, absGe, c1, c2, c3, lt_irrefl, decide_false, Bool.false_and]
  rfl

end Refuted

/-! ### Examples: the hypotheses of C201 are met together -/

/-- The OCB of the example record, at 79 degrees at 18 hours, and an EAB at 70 degrees. -/
noncomputable def exEab : Rec := ⟨90, 5, 25, fun _ => 0, 1, 64⟩

theorem ex_round : Round exRec 18 ∧ Round exEab 18 ∧ exEab.Valid ∧ boundaryLat exRec 18 = .ok (some 79) ∧
    boundaryLat exEab 18 = .ok (some 70) := by
  have h : hourAngle 18 - 90 * Real.pi / 180 = Real.pi := by unfold hourAngle; ring
  have a : Round exRec 18 := by
    constructor
    · exact exRec_mild
    · norm_num [exRec, abs_of_pos]
  have b : Round exEab 18 := by
    constructor
    · constructor <;> norm_num [exEab, abs_of_pos]
    · norm_num [exEab, abs_of_pos]
  refine ⟨a, b, ⟨.inl rfl, by norm_num [exEab], by norm_num [exEab, abs_of_pos]⟩, ?_, ?_⟩
  · rw [a.exact]
    simp only [farCross, halfChord2, gap, exRec, h, Real.sin_pi, Real.cos_pi]
    rw [show ((16 : ℝ) + 0) ^ 2 - (5 * 0) ^ 2 = 16 ^ 2 by norm_num, Real.sqrt_sq (by norm_num)]
    norm_num
  · rw [b.exact]
    simp only [farCross, halfChord2, gap, exEab, h, Real.sin_pi, Real.cos_pi]
    rw [show ((25 : ℝ) + 0) ^ 2 - (5 * 0) ^ 2 = 25 ^ 2 by norm_num, Real.sqrt_sq (by norm_num)]
    norm_num

/-- 85 degrees keeps an OCB latitude of at least 74 degrees, 75 degrees goes near `74 - 4 * 10 / 9`, 35 degrees near 32. -/
example (r : ℝ → ℝ) (hr : Nearest r) :
    (∃ v m l, DualNormalD r (exLib r) exRec exEab 85 18 (some v) m l ∧ 74 ≤ |v|) ∧
    (∃ v m l, DualNormalD r (exLib r) exRec exEab 75 18 (some v) m l ∧ |v - (74 - 4 * 10 / 9)| ≤ 1 / 10 ^ 8) ∧
    (∃ v m l, DualNormalD r (exLib r) exRec exEab 35 18 (some v) m l ∧ |v - 32| ≤ 1 / 10 ^ 8) := by
  obtain ⟨a, b, c, d, e⟩ := ex_round
  refine ⟨?_, ?_, ?_⟩
  · obtain ⟨v, m, -, -, u, -, -, h⟩ := C201_poleward_partial hr (exLib_ok r) exRec_valid c rfl (lat := 85) a b exRec_fair
      (by norm_num [exRec, abs_of_pos]) (by norm_num) (by norm_num) (by norm_num [exRec]) (by norm_num [exRec]) d e
      (by norm_num [exRec]) (by norm_num [exRec]) (by norm_num [exRec]) (by norm_num [exRec])
    refine ⟨v, m, v, (u _ _ _).2 ⟨rfl, rfl, rfl⟩, ?_⟩
    refine le_trans ?_ (le_abs_self v)
    simpa [exRec, abs_of_pos] using h
  · obtain ⟨v, m, l, u, h⟩ := C201_auroral_partial hr (exLib_ok r) exRec_valid c rfl (lat := 75) a b exRec_fair
      (by norm_num) (by norm_num) (by norm_num [exRec]) (by norm_num [exRec]) d e
      (by norm_num [exRec]) (by norm_num [exRec]) (by norm_num [exRec])
    refine ⟨v, m, l, (u _ _ _).2 ⟨rfl, rfl, rfl⟩, ?_⟩
    norm_num [exRec, exEab, abs_of_pos] at h ⊢
    linarith
  · obtain ⟨v, m, l, u, h⟩ := C201_equatorward_partial hr (exLib_ok r) exRec_valid c rfl (lat := 35) a b exRec_fair
      (by norm_num) (by norm_num) (by norm_num [exRec]) e (by norm_num [exRec]) (by norm_num [exRec])
    refine ⟨v, m, l, (u _ _ _).2 ⟨rfl, rfl, rfl⟩, ?_⟩
    norm_num [exEab, abs_of_pos] at h ⊢
    linarith

/-- The three locations come back within a ten millionth of a degree. -/
example (r : ℝ → ℝ) (hr : Nearest r) (lat : ℝ) (hlat : lat = 85 ∨ lat = 75 ∨ lat = 35) :
    ∃ v m l la ml, DualNormalD r (exLib r) exRec exEab lat 18 (some v) m l ∧
      DualRevertD r (exLib r) exRec exEab v m (exRec.rf 18) 18 (some la) ml ∧ |la - lat| ≤ 1 / 10 ^ 7 := by
  obtain ⟨a, b, c, d, e⟩ := ex_round
  rcases hlat with rfl | rfl | rfl
  · obtain ⟨v, m, la, ml, u, w, h⟩ := C203_poleward hr (exLib_ok r) exRec_valid c rfl (lat := 85) a b exRec_fair
      (by norm_num [exRec, abs_of_pos]) (by norm_num) (by norm_num) (by norm_num [exRec]) (by norm_num [exRec]) d e
      (by norm_num [exRec]) (by norm_num [exRec]) (by norm_num [exRec]) (by norm_num [exRec])
    refine ⟨v, m, v, la, ml, (u _ _ _).2 ⟨rfl, rfl, rfl⟩, (w _ _).2 ⟨rfl, rfl⟩, h.trans ?_⟩
    norm_num [exRec, colat]
  · obtain ⟨v, m, l, la, u, w, h⟩ := C203_auroral hr (exLib_ok r) exRec_valid c rfl (lat := 75) a b exRec_fair
      (by norm_num) (by norm_num) (by norm_num [exRec]) (by norm_num [exRec]) d e
      (by norm_num [exRec]) (by norm_num [exRec]) (by norm_num [exRec]) (by norm_num [exRec, exEab, abs_of_pos])
    refine ⟨v, m, l, la, 18, (u _ _ _).2 ⟨rfl, rfl, rfl⟩, (w _ _ _).2 ⟨rfl, rfl⟩, h.trans ?_⟩
    norm_num [exRec, exEab, abs_of_pos]
  · obtain ⟨v, m, l, la, u, w, h⟩ := C203_equatorward hr (exLib_ok r) exRec_valid c rfl (lat := 35) a b exRec_fair
      (by norm_num) (by norm_num) (by norm_num [exRec]) e (by norm_num [exRec]) (by norm_num [exRec])
      (by norm_num [exRec, exEab, abs_of_pos]) (by norm_num [exEab, abs_of_pos])
    refine ⟨v, m, l, la, 18, (u _ _ _).2 ⟨rfl, rfl, rfl⟩, (w _ _ _).2 ⟨rfl, rfl⟩, h.trans ?_⟩
    norm_num [exEab, abs_of_pos]

/-- A dual latitude of 70 degrees is reverted near 75.4 degrees. -/
example (r : ℝ → ℝ) (hr : Nearest r) : ∃ v, DualRevertD r (exLib r) exRec exEab 70 3 0 18 (some v) 18 ∧
    |v - 75.4| ≤ 1 / 10 ^ 8 := by
  obtain ⟨a, b, c, d, e⟩ := ex_round
  obtain ⟨v, w, h⟩ := C202_auroral hr (exLib_ok r) exRec_valid c rfl (b := 70) (bmlt := 3) (corr := 0) a b (by norm_num)
    (by norm_num) d e (by norm_num [abs_of_pos]) (by norm_num [abs_of_pos]) (by norm_num [exRec])
    (by norm_num [exEab, abs_of_pos]) (by norm_num [exRec, abs_of_pos]) (by norm_num [exRec, exEab, abs_of_pos])
  refine ⟨v, (w _ _).2 ⟨rfl, rfl⟩, ?_⟩
  norm_num [exRec, exEab] at h ⊢
  linarith

example (r : ℝ → ℝ) : (exLib r).cos 0 = 1 ∧ (exLib r).sin 0 = 0 := by simp [exLib]

end Ocb.Dbl
