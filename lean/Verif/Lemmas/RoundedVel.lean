import Verif.Lemmas.Rounding

/-! Rounding errors of the two velocity formulas. -/

namespace Radvel
open Real

variable {A : Ops}

/-- The exact velocity with the ratio `r` in place of the tangent. -/
theorem velocity_of_ratio (e om k x : ℝ) : rvNumpy e om k (2 * x) = k * (cos (2 * arctan (√((1 + e) / (1 - e)) * tan x) + om) + e * cos om) := by
  unfold rvNumpy trueAnomalyOf
  have hsqrt : ((1 + e) / (1 - e)) ^ (0.5 : ℝ) = √((1 + e) / (1 - e)) := by
    rw [Real.sqrt_eq_rpow]; norm_num
  rw [hsqrt, show 2 * x / 2 = x by ring]

theorem round_last (hA : IsDouble A) {k S S' B : ℝ} (hS : |S - S'| ≤ B) (hb : |S| ≤ 3.2) : |A.mul k S - k * S'| ≤ |k| * (B + 4e-16) + tiny := by
  have h1 := hA.mul k S
  have h2 : |k * S - k * S'| ≤ |k| * B := by rw [← mul_sub, abs_mul]; exact mul_le_mul_of_nonneg_left hS (abs_nonneg k)
  have h3 := near_trans h1 h2
  have h4 := mul_le_mul unit_le (abs_mul_le (le_refl |k|) hb) (abs_nonneg _) (by norm_num)
  have := abs_nonneg k
  refine h3.trans ?_
  generalize |k| = K at *
  norm_num at *; linarith

theorem round_numpy (hA : IsDouble A) (e om k E : ℝ) (he : 0 ≤ e) (he1 : e ≤ 0.9900001) (hE : |E| ≤ 7.5) :
    |A.rvNumpy e om k E - rvNumpy e om k (2 * A.div E 2)| ≤ |k| * (2e-14 + 1.2e-16 * |om|) + tiny := by
  have hu := unit_le; have hp := unit_pos; have ht := tiny_le; have hl := lib_le; have hlp := lib_pos
  obtain ⟨h1, -, -, -⟩ := round_ratio hA e E he he1 hE
  rw [velocity_of_ratio]
  unfold Ops.rvNumpy
  generalize A.ratio e E = r at *
  generalize √((1 + e) / (1 - e)) * tan (A.div E 2) = r0 at *
  have h2 := near_arctan h1 (by norm_num) (by norm_num) (by norm_num)
  have h3 := (hA.arctan r).trans (mul_le_mul_of_nonneg_left hl (by norm_num : (0 : ℝ) ≤ 2))
  have b0 : |arctan r| ≤ 1.6 := by
    rw [abs_le]
    have := Real.arctan_lt_pi_div_two r; have := Real.neg_pi_div_two_lt_arctan r
    have := Real.pi_lt_d2
    norm_num at *; constructor <;> linarith
  have b1 := abs_of_near h3 b0
  have h4 := hA.mul 2 (A.arctan r)
  have b2 : |2 * A.arctan r| ≤ 3.21 := by rw [abs_mul, abs_two]; norm_num at *; linarith
  have h4' : |A.mul 2 (A.arctan r) - 2 * A.arctan r| ≤ 4e-16 := h4.trans (by
    have := mul_le_mul hu b2 (abs_nonneg _) (by norm_num)
    norm_num at *; linarith)
  have h5 : |2 * A.arctan r - 2 * arctan r0| ≤ 8.6e-15 := by
    rw [← mul_sub, abs_mul, abs_two]
    have := near_trans h3 h2
    norm_num at *; linarith
  have h6 := near_trans h4' h5
  have b3 := abs_of_near h4' b2
  generalize A.mul 2 (A.arctan r) = nu at *
  generalize 2 * arctan r0 = nu0 at *
  have h7 := hA.add nu om
  have h7' : |A.add nu om - (nu + om)| ≤ 4e-16 + 1.1103e-16 * |om| := h7.trans (by
    have := mul_le_mul hu (abs_add_le nu om) (abs_nonneg _) (by norm_num)
    norm_num at *; linarith)
  have h8 : |nu + om - (nu0 + om)| ≤ 4e-16 + 8.6e-15 := by rw [show nu + om - (nu0 + om) = nu - nu0 by ring]; exact h6
  have h9 := near_cos (near_trans h7' h8)
  have h10 := near_trans ((hA.cos (A.add nu om)).trans hl) h9
  have b4 := abs_of_near ((hA.cos (A.add nu om)).trans hl) (Real.abs_cos_le_one _)
  have h11 := (hA.cos om).trans hl
  have b5 := abs_of_near h11 (Real.abs_cos_le_one _)
  have be : |e| ≤ 1 := by rw [abs_of_nonneg he]; norm_num at *; linarith
  have h12 : |e * A.cos om - e * cos om| ≤ 8.9e-16 := by rw [← mul_sub]; exact (abs_mul_le be h11).trans (by norm_num)
  have h13 := hA.mul e (A.cos om)
  have b6 := abs_mul_le be b5
  have h13' : |A.mul e (A.cos om) - e * A.cos om| ≤ 1.2e-16 := h13.trans (by
    have := mul_le_mul hu b6 (abs_nonneg _) (by norm_num)
    norm_num at *; linarith)
  have h14 := near_trans h13' h12
  have b7 := abs_of_near h13' b6
  generalize A.mul e (A.cos om) = p at *
  generalize A.cos (A.add nu om) = c at *
  have h15 := hA.add c p
  have b8 : |c + p| ≤ 2.1 := by
    have := abs_add_le c p
    norm_num at *; linarith
  have h15' : |A.add c p - (c + p)| ≤ 2.4e-16 := h15.trans (by
    have := mul_le_mul hu b8 (abs_nonneg _) (by norm_num)
    norm_num at *; linarith)
  have h16 : |c + p - (cos (nu0 + om) + e * cos om)| ≤ 1.2e-14 + 1.1103e-16 * |om| := by
    rw [show c + p - (cos (nu0 + om) + e * cos om) = (c - cos (nu0 + om)) + (p - e * cos om) by ring]
    refine (abs_add_le _ _).trans ?_
    norm_num at *; linarith
  refine (round_last hA (near_trans h15' h16) ?_).trans ?_
  · have := abs_of_near h15' b8
    norm_num at *; linarith
  · have := mul_le_mul_of_nonneg_left (show 2.4e-16 + (1.2e-14 + 1.1103e-16 * |om|) + 4e-16 ≤ 2e-14 + 1.2e-16 * |om| by
      have := abs_nonneg om
      generalize |om| = x at *
      norm_num; linarith) (abs_nonneg k)
    linarith

theorem double_ratio (r om : ℝ) : cos (2 * arctan r + om) = cos om * (2 / (1 + r * r) - 1) - r * (2 / (1 + r * r)) * sin om := by
  have h0 : (1 : ℝ) + r * r ≠ 0 := by nlinarith [mul_self_nonneg r]
  rw [Real.cos_add, cos_two_arctan, sin_two_arctan]
  have h1 : (1 : ℝ) + r ^ 2 ≠ 0 := by positivity
  field_simp
  ring

theorem round_fac (hA : IsDouble A) (r : ℝ) (hr : |r| ≤ 1e19) :
    |A.sub (A.div 2 (A.add 1 (A.mul r r))) 1 - (2 / (1 + r * r) - 1)| ≤ 8.5e-16 ∧ |A.mul r (A.div 2 (A.add 1 (A.mul r r))) - r * (2 / (1 + r * r))| ≤ 5e-16 ∧
    |2 / (1 + r * r) - 1| ≤ 1 ∧ |r * (2 / (1 + r * r))| ≤ 1 := by
  have hu := unit_le; have hp := unit_pos; have ht := tiny_le'
  -- the denominator
  have rr : 0 ≤ r * r := mul_self_nonneg r
  have m1 := hA.mul r r
  rw [abs_of_nonneg rr] at m1
  have m2 := hA.add 1 (A.mul r r)
  generalize A.mul r r = s at *
  have m3 : |s - r * r| ≤ 1.1103e-16 * (r * r) + 1e-40 := by
    have := mul_le_mul_of_nonneg_right hu rr
    linarith
  have m4 : |1 + s - (1 + r * r)| ≤ 1.1103e-16 * (r * r) + 1e-40 := by rw [show 1 + s - (1 + r * r) = s - r * r by ring]; exact m3
  have m5 := abs_of_near m4 (abs_of_nonneg (show (0 : ℝ) ≤ 1 + r * r by linarith)).le
  have m6 := mul_le_mul hu m5 (abs_nonneg _) (by norm_num)
  have m7 : |A.add 1 s - (1 + r * r)| ≤ 2.3e-16 * (1 + r * r) := by
    have := near_trans m2 m4
    norm_num at *; linarith
  generalize A.add 1 s = den at *
  have hD : 0 < 1 + r * r := by linarith
  have rD : |r| ≤ 1 + r * r := by
    rw [abs_le]; constructor <;> nlinarith [sq_nonneg (r + 1), sq_nonneg (r - 1)]
  have rD2 : |r| * 2 ≤ 1 + r * r := by
    have h5 : |r| * |r| = r * r := abs_mul_abs_self r
    nlinarith [sq_nonneg (|r| - 1)]
  generalize hDe : 1 + r * r = D at *
  have hden : 0 < den := by
    have := (abs_le.1 m7).1
    norm_num at *; linarith
  -- `fac`
  have f1 := hA.div 2 den hden.ne'
  have f2 : |2 / den - 2 / D| ≤ 2.4e-16 * (2 / D) := by
    rw [show 2 / den - 2 / D = 2 * (D - den) / (den * D) by field_simp, abs_div, abs_mul, abs_two, abs_of_pos (mul_pos hden hD), div_le_iff₀ (mul_pos hden hD), abs_sub_comm]
    rw [show 2.4e-16 * (2 / D) * (den * D) = 2.4e-16 * 2 * den by field_simp]
    have := (abs_le.1 m7).1
    norm_num at *; linarith
  have Dinv : 2 / D ≤ 2 := by rw [div_le_iff₀ hD]; linarith
  have Dpos : 0 < 2 / D := by positivity
  have rf : |r| * (2 / D) ≤ 1 := by
    rw [← mul_div_assoc, div_le_one hD]; exact rD2
  generalize 2 / D = f at *
  have f3 := abs_of_near f2 (abs_of_pos Dpos).le
  have f4 : |A.div 2 den - f| ≤ 3.6e-16 * f + 1e-40 := by
    have h5 := mul_le_mul hu f3 (abs_nonneg _) (by norm_num)
    have := near_trans f1 f2
    norm_num at *; linarith
  generalize A.div 2 den = fac at *
  have f5 := abs_of_near f4 (abs_of_pos Dpos).le
  have f6 : |fac - 1 - (f - 1)| ≤ 7.3e-16 := by rw [show fac - 1 - (f - 1) = fac - f by ring]; norm_num at *; linarith
  have bf : |f - 1| ≤ 1 := by rw [abs_le]; constructor <;> linarith
  have b1 := abs_of_near f6 bf
  have f7 := hA.sub fac 1
  have f8 : |A.sub fac 1 - (f - 1)| ≤ 8.5e-16 := by
    have h5 := mul_le_mul hu b1 (abs_nonneg _) (by norm_num)
    have := near_trans f7 f6
    norm_num at *; linarith
  -- `ratio * fac`
  have g1 : |r * fac - r * f| ≤ 3.7e-16 := by
    rw [← mul_sub, abs_mul]
    have h5 := mul_le_mul_of_nonneg_left f4 (abs_nonneg r)
    have h6 : |r| * (3.6e-16 * f + 1e-40) = 3.6e-16 * (|r| * f) + 1e-40 * |r| := by ring
    rw [h6] at h5
    generalize |r| * f = y at *
    norm_num at *; linarith
  have brf : |r * f| ≤ 1 := by rw [abs_mul, abs_of_pos Dpos]; exact rf
  have b3 := abs_of_near g1 brf
  have g2 := hA.mul r fac
  have g3 : |A.mul r fac - r * f| ≤ 5e-16 := by
    have h5 := mul_le_mul hu b3 (abs_nonneg _) (by norm_num)
    have := near_trans g2 g1
    norm_num at *; linarith
  exact ⟨f8, g3, bf, brf⟩

theorem round_sum (hA : IsDouble A) {e om x y x' y' : ℝ} (he : |e| ≤ 1) (f8 : |x' - x| ≤ 8.5e-16) (g3 : |y' - y| ≤ 5e-16) (bf : |x| ≤ 1) (brf : |y| ≤ 1) :
    |A.add (A.sub (A.mul (A.cos om) x') (A.mul y' (A.sin om))) (A.mul e (A.cos om)) - (cos om * x - y * sin om + e * cos om)| ≤ 7e-15 ∧
    |A.add (A.sub (A.mul (A.cos om) x') (A.mul y' (A.sin om))) (A.mul e (A.cos om))| ≤ 3.2 := by
  have hu := unit_le; have ht := tiny_le
  have hc := (hA.cos om).trans lib_le
  have hs := (hA.sin om).trans lib_le
  have bc := Real.abs_cos_le_one om
  have bs := Real.abs_sin_le_one om
  have b2 := abs_of_near f8 bf
  have b4 := abs_of_near g3 brf
  have bc' := abs_of_near hc bc
  have bs' := abs_of_near hs bs
  have t1 := near_mul hc f8 bc b2
  have t2 := near_mul g3 hs brf bs'
  have t3 : |e * A.cos om - e * cos om| ≤ 8.9e-16 := by rw [← mul_sub]; exact (abs_mul_le he hc).trans (by norm_num)
  have u1 := hA.mul (A.cos om) x'
  have u2 := hA.mul y' (A.sin om)
  have u3 := hA.mul e (A.cos om)
  have v1 := mul_le_mul hu (abs_mul_le bc' b2) (abs_nonneg _) (by norm_num)
  have v2 := mul_le_mul hu (abs_mul_le b4 bs') (abs_nonneg _) (by norm_num)
  have v3 := mul_le_mul hu (abs_mul_le he bc') (abs_nonneg _) (by norm_num)
  have w1 : |A.mul (A.cos om) x' - cos om * x| ≤ 2e-15 := by
    have := near_trans u1 t1
    clear u1 u2 u3 t1 t2 t3
    norm_num at v1 this ht ⊢; linarith
  have w2 : |A.mul y' (A.sin om) - y * sin om| ≤ 2e-15 := by
    have := near_trans u2 t2
    norm_num at v2 this ht ⊢; linarith
  have w3 : |A.mul e (A.cos om) - e * cos om| ≤ 2e-15 := by
    have := near_trans u3 t3
    norm_num at v3 this ht ⊢; linarith
  have y1 := abs_of_near w1 (abs_mul_le bc bf)
  have y2 := abs_of_near w2 (abs_mul_le brf bs)
  have y3 := abs_of_near w3 (abs_mul_le he bc)
  clear u1 u2 u3 t1 t2 t3 v1 v2 v3
  generalize A.mul (A.cos om) x' = z1 at *
  generalize A.mul y' (A.sin om) = z2 at *
  generalize A.mul e (A.cos om) = z3 at *
  have s1 := hA.sub z1 z2
  have b5 := abs_sub z1 z2
  have h5 : |z1 - z2| ≤ 2.0001 := by norm_num at y1 y2 ⊢; linarith
  have s2 : |A.sub z1 z2 - (z1 - z2)| ≤ 2.3e-16 := s1.trans ((mul_le_mul hu h5 (abs_nonneg _) (by norm_num)).trans (by norm_num))
  have b6 := abs_of_near s2 h5
  generalize A.sub z1 z2 = a at *
  have s3 := hA.add a z3
  have b7 : |a + z3| ≤ 3.01 := by
    have := abs_add_le a z3
    norm_num at b6 y3 this ⊢; linarith
  have s4 : |A.add a z3 - (a + z3)| ≤ 3.4e-16 := s3.trans ((mul_le_mul hu b7 (abs_nonneg _) (by norm_num)).trans (by norm_num))
  refine ⟨?_, (abs_of_near s4 b7).trans (by norm_num)⟩
  have s5 : |a + z3 - (cos om * x - y * sin om + e * cos om)| ≤ 6.3e-15 := by
    have e1 : a + z3 - (cos om * x - y * sin om + e * cos om) = ((a - (z1 - z2)) + (z1 - cos om * x) + (-(z2 - y * sin om))) + (z3 - e * cos om) := by ring
    rw [e1]
    refine (abs_add_le _ _).trans ((add_le_add_left (abs_add_three _ _ _) _).trans ?_)
    rw [abs_neg]
    norm_num at s2 w1 w2 w3 ⊢; linarith
  exact (near_trans s4 s5).trans (by norm_num)

theorem round_c (hA : IsDouble A) (e om k E : ℝ) (he : 0 ≤ e) (he1 : e ≤ 0.9900001) (hE : |E| ≤ 7.5) :
    |A.rvC e om k E - rvC e om k (2 * A.div E 2)| ≤ |k| * 2e-14 + tiny := by
  obtain ⟨h1, -, -, hr⟩ := round_ratio hA e E he he1 hE
  rw [rvC_eq_numpy, velocity_of_ratio]
  unfold Ops.rvC
  simp only
  generalize A.ratio e E = r at *
  generalize √((1 + e) / (1 - e)) * tan (A.div E 2) = r0 at *
  have h2 := near_arctan h1 (by norm_num) (by norm_num) (by norm_num)
  have h3 : |2 * arctan r + om - (2 * arctan r0 + om)| ≤ 2 * (2.5e-15 + 1e-28) := by
    rw [show 2 * arctan r + om - (2 * arctan r0 + om) = 2 * (arctan r - arctan r0) by ring, abs_mul, abs_two]
    linarith
  have h4 := near_cos h3
  rw [double_ratio] at h4
  obtain ⟨a1, a2, a3, a4⟩ := round_fac hA r hr
  have be : |e| ≤ 1 := by rw [abs_of_nonneg he]; norm_num at he1; linarith
  obtain ⟨b1, b2⟩ := round_sum hA (om := om) be a1 a2 a3 a4
  have h5 : |cos om * (2 / (1 + r * r) - 1) - r * (2 / (1 + r * r)) * sin om + e * cos om - (cos (2 * arctan r0 + om) + e * cos om)| ≤ 2 * (2.5e-15 + 1e-28) := by
    rw [add_sub_add_right_eq_sub]; exact h4
  refine (round_last hA (near_trans b1 h5) b2).trans ?_
  have := mul_le_mul_of_nonneg_left (show (7e-15 : ℝ) + 2 * (2.5e-15 + 1e-28) + 4e-16 ≤ 2e-14 by norm_num) (abs_nonneg k)
  linarith

end Radvel
