import Verif.Spec.RoundedPost
import Verif.Lemmas.RoundedLike
import Verif.Props.RoundedLike
import Mathlib.Analysis.Complex.ExponentialBounds

/-! Rounding errors of priors and of sums. -/

namespace Radvel
open Real ProbabilityTheory

variable {O : PostOps}

/-- A rounded difference divided by a number. -/
theorem rel_quot {u T R r s z : ℝ} (hu : u ≤ 1.1103e-16) (hu0 : 0 ≤ u) (h1 : |r - R| ≤ u * |R|) (h2 : |z - r / s| ≤ u * |r / s| + T) : |z - R / s| ≤ 2.3e-16 * |R / s| + T := by
  have h3 : |r / s - R / s| ≤ u * |R / s| := by
    rw [← sub_div, abs_div, abs_div, ← mul_div_assoc]
    exact div_le_div_of_nonneg_right h1 (abs_nonneg s)
  have h4 : |r / s| ≤ |R / s| + u * |R / s| := abs_of_near h3 (le_refl _)
  have h5 := abs_sub_le z (r / s) (R / s)
  have hR := abs_nonneg (R / s)
  have h6 := mul_le_mul_of_nonneg_left h4 hu0
  have h7 : u * |R / s| ≤ 1.1103e-16 * |R / s| := mul_le_mul_of_nonneg_right hu hR
  have h8 : u * (u * |R / s|) ≤ 1.1103e-16 * (1.1103e-16 * |R / s|) := mul_le_mul hu h7 (by positivity) (by norm_num)
  linarith

/-- A rounded square of a rounded number. -/
theorem rel_pow2 {ν T z Z q : ℝ} (hν : ν ≤ 8.9e-16) (hT0 : 0 ≤ T) (hT : T ≤ 1e-150) (h1 : |z - Z| ≤ 2.3e-16 * |Z| + T) (h2 : |q - z ^ 2| ≤ ν * z ^ 2 + T) : |q - Z ^ 2| ≤ 1.4e-15 * Z ^ 2 + 1e-140 := by
  have h3 := (sq_near h1).1
  have hA := abs_nonneg Z
  have hsq : |Z| ^ 2 = Z ^ 2 := sq_abs Z
  have hTA : T * |Z| ≤ 1e-150 * ((1 + Z ^ 2) / 2) := by
    refine mul_le_mul hT ?_ hA (by norm_num)
    nlinarith [sq_nonneg (|Z| - 1)]
  have hTT : T * T ≤ 1e-150 * 1e-150 := mul_le_mul hT hT hT0 (by norm_num)
  have h4 : |z ^ 2 - Z ^ 2| ≤ 4.61e-16 * Z ^ 2 + 1e-145 := by
    refine h3.trans ?_
    have e : 2 * ((2.3e-16 * |Z| + T) * (|Z| + (2.3e-16 * |Z| + T))) = 4.6e-16 * (1 + 2.3e-16) * |Z| ^ 2 + 2 * (1 + 4.6e-16) * (T * |Z|) + 2 * (T * T) := by ring
    rw [e, hsq]
    have hZ := sq_nonneg Z
    norm_num at hTA hTT ⊢
    linarith
  have h5 : z ^ 2 ≤ Z ^ 2 + (4.61e-16 * Z ^ 2 + 1e-145) := by have := (abs_le.1 h4).2; linarith
  have h6 : ν * z ^ 2 ≤ 8.9e-16 * (Z ^ 2 + (4.61e-16 * Z ^ 2 + 1e-145)) := mul_le_mul hν h5 (sq_nonneg z) (by norm_num)
  have h7 := abs_sub_le q (z ^ 2) (Z ^ 2)
  have hZ := sq_nonneg Z
  norm_num at h4 h6 hT ⊢
  linarith

/-- Half of a rounded number. -/
theorem rel_half {u T q Q α β c : ℝ} (hu : u ≤ 1.1103e-16) (hα : α ≤ 1e-10) (hβ0 : 0 ≤ β) (h1 : |q - Q| ≤ α * |Q| + β) (c2 : |c| = 1 / 2) {h : ℝ} (h2 : |h - c * q| ≤ u * |c * q| + T) :
    |h - c * Q| ≤ (α / 2 + 5.56e-17) * |Q| + β + T := by
  have hQ := abs_nonneg Q
  have hα1 : α * |Q| ≤ 1e-10 * |Q| := mul_le_mul_of_nonneg_right hα hQ
  have hq : |q| ≤ |Q| + (α * |Q| + β) := abs_of_near h1 (le_refl _)
  have h3 : |c * q - c * Q| ≤ 1 / 2 * (α * |Q| + β) := by
    rw [← mul_sub, abs_mul, c2]
    exact mul_le_mul_of_nonneg_left h1 (by norm_num)
  have h4 : u * |c * q| ≤ 1.1103e-16 * (1 / 2 * (|Q| + (α * |Q| + β))) := by
    rw [abs_mul, c2]
    exact mul_le_mul hu (mul_le_mul_of_nonneg_left hq (by norm_num)) (by positivity) (by norm_num)
  have h5 := abs_sub_le h (c * q) (c * Q)
  have e : (α / 2 + 5.56e-17) * |Q| = α * |Q| / 2 + 5.56e-17 * |Q| := by ring
  rw [e]
  have h6 := h2.trans (add_le_add_left h4 T)
  norm_num at h6 hα1 ⊢
  linarith

theorem gaussian_log {mu sigma x : ℝ} (hs : sigma ≠ 0) : (RPrior.gaussian mu sigma).logDensity x = -0.5 * ((x - mu) / sigma) ^ 2 - 0.5 * log (sigma ^ 2 * 2 * π) := by
  have hv : 0 < sigma ^ 2 := by positivity
  have hp := pi_pos
  show log (gaussianPDFReal mu (sigma ^ 2).toNNReal x) = _
  unfold gaussianPDFReal
  rw [Real.coe_toNNReal _ hv.le, log_mul (by positivity) (exp_ne_zero _), log_exp, log_inv, log_sqrt (by positivity), show 2 * π * sigma ^ 2 = sigma ^ 2 * 2 * π by ring]
  field_simp
  ring

theorem gaussian_round (hO : IsPostDouble O) (mu sigma x : ℝ) (hs : 1e-50 ≤ |sigma|) :
    |O.gaussian mu sigma x - (RPrior.gaussian mu sigma).logDensity x| ≤ 3e-15 * (RPrior.gaussian mu sigma).size x + 2e-15 := by
  have hs0 : sigma ≠ 0 := by rintro rfl; norm_num at hs
  have hu := unit_le
  have hu0 := unit_pos.le
  have hT := tiny_le2
  have hT0 := tiny_pos.le
  have hp := pi_pos
  have hsig : 1e-100 ≤ sigma ^ 2 := by have := (quad_ge 0 hs).2; simpa using this
  have hsig0 : 0 < sigma ^ 2 := lt_of_lt_of_le (by norm_num) hsig
  rw [gaussian_log hs0]
  unfold PostOps.gaussian
  simp only [RPrior.size]
  -- the square
  have z1 := rel_quot hu hu0 (hO.like.ops.sub x mu) (hO.like.ops.div (O.sub x mu) sigma hs0)
  have z2 := rel_pow2 lib_le hT0 hT z1 (hO.pow2 _)
  have z3 := rel_half (c := -0.5) (β := 1e-140) hu (by norm_num : (1.4e-15 : ℝ) ≤ 1e-10) (by norm_num) (by rw [abs_of_nonneg (sq_nonneg ((x - mu) / sigma))]; exact z2) (by norm_num [abs_of_neg]) (hO.like.ops.mul (-0.5) _)
  generalize O.mul (-0.5) (O.pow2 (O.div (O.sub x mu) sigma)) = h at *
  -- the logarithm
  have p1 : |O.pow2 sigma - sigma ^ 2| ≤ 8.91e-16 * sigma ^ 2 := by
    refine (hO.pow2 sigma).trans ?_
    have := mul_le_mul_of_nonneg_right lib_le hsig0.le
    norm_num at this hT hsig ⊢
    linarith
  have two : |(2 : ℝ) - 2| ≤ 0 * 2 := by norm_num
  have p2 := rel_mul (u := unitRound) (T := tiny) hu hsig0.le (by norm_num : (0 : ℝ) ≤ 2) (by norm_num : (0 : ℝ) ≤ 8.91e-16) (le_refl 0) (by norm_num) (by norm_num) p1 two (hO.like.ops.mul _ 2)
  have p2' : |O.mul (O.pow2 sigma) 2 - sigma ^ 2 * 2| ≤ 1.003e-15 * (sigma ^ 2 * 2) := by
    refine p2.trans ?_
    norm_num at hT hsig ⊢
    linarith
  have hpi := hO.like.ops.lit π
  rw [abs_of_pos hp] at hpi
  have hpi' : |O.lit π - π| ≤ 1.1103e-16 * π := hpi.trans (mul_le_mul_of_nonneg_right hu hp.le)
  have p3 := rel_mul (u := unitRound) (T := tiny) hu (by positivity : 0 ≤ sigma ^ 2 * 2) hp.le (by norm_num : (0 : ℝ) ≤ 1.003e-15) (by norm_num) (by norm_num) (by norm_num) p2' hpi' (hO.like.ops.mul _ _)
  have p3' : |O.mul (O.mul (O.pow2 sigma) 2) (O.lit π) - sigma ^ 2 * 2 * π| ≤ 1.23e-15 * (sigma ^ 2 * 2 * π) := by
    refine p3.trans ?_
    have : sigma ^ 2 * 2 * 3 ≤ sigma ^ 2 * 2 * π := mul_le_mul_of_nonneg_left pi_gt_three.le (by positivity)
    norm_num at hT hsig ⊢
    linarith
  have p4 := rel_log (by positivity : 0 < sigma ^ 2 * 2 * π) (by norm_num) (by norm_num) lib_le p3' (hO.like.log _)
  have p5 := rel_half (c := 0.5) (β := 1.0001 * 1.23e-15) hu (by norm_num : (8.9e-16 : ℝ) ≤ 1e-10) (by norm_num) p4 (by norm_num [abs_of_pos]) (hO.like.ops.mul 0.5 _)
  generalize O.mul 0.5 (O.log (O.mul (O.mul (O.pow2 sigma) 2) (O.lit π))) = p at *
  rw [show 2 * π * sigma ^ 2 = sigma ^ 2 * 2 * π by ring]
  have f1 := hO.like.ops.sub h p
  generalize O.sub h p = g at *
  generalize log (sigma ^ 2 * 2 * π) = P at *
  have hz := sq_nonneg ((x - mu) / sigma)
  rw [abs_of_nonneg hz] at z3
  generalize ((x - mu) / sigma) ^ 2 = Z at *
  have hP := abs_nonneg P
  have d1 : |h - p - (-0.5 * Z - 0.5 * P)| ≤ ((1.4e-15 / 2 + 5.56e-17) * Z + 1e-140 + tiny) + ((8.9e-16 / 2 + 5.56e-17) * |P| + 1.0001 * 1.23e-15 + tiny) := by
    rw [show h - p - (-0.5 * Z - 0.5 * P) = (h - -0.5 * Z) - (p - 0.5 * P) by ring]
    exact (abs_sub _ _).trans (add_le_add z3 p5)
  have d2 : |-0.5 * Z - 0.5 * P| ≤ 0.5 * Z + 0.5 * |P| := by
    refine (abs_sub _ _).trans ?_
    rw [abs_mul, abs_mul, abs_of_nonneg hz]
    norm_num [abs_of_neg, abs_of_pos]
  have d3 := abs_of_near d1 d2
  have d4 : unitRound * |h - p| ≤ 1.1103e-16 * (0.5 * Z + 0.5 * |P| + (((1.4e-15 / 2 + 5.56e-17) * Z + 1e-140 + tiny) + ((8.9e-16 / 2 + 5.56e-17) * |P| + 1.0001 * 1.23e-15 + tiny))) :=
    mul_le_mul hu d3 (abs_nonneg _) (by norm_num)
  have d5 := abs_sub_le g (h - p) (-0.5 * Z - 0.5 * P)
  norm_num at d1 d4 d5 hT f1 ⊢
  linarith

theorem bounds_round (hO : IsPostDouble O) (lo hi x : ℝ) (h : lo < hi) :
    |-O.log (O.sub hi lo) - (RPrior.bounds lo hi).logDensity x| ≤ 3e-15 * (RPrior.bounds lo hi).size x + 2e-15 := by
  have hw : 0 < hi - lo := by linarith
  have h1 := hO.like.ops.sub hi lo
  rw [abs_of_pos hw] at h1
  have h2 : |O.sub hi lo - (hi - lo)| ≤ 1.1103e-16 * (hi - lo) := h1.trans (mul_le_mul_of_nonneg_right unit_le hw.le)
  have h3 := rel_log hw (by norm_num) (by norm_num) lib_le h2 (hO.like.log _)
  simp only [RPrior.logDensity, RPrior.size]
  rw [one_div, log_inv, show ∀ a b : ℝ, -a - -b = -(a - b) from fun a b => by ring, abs_neg]
  have := abs_nonneg (log (hi - lo))
  norm_num at h3 ⊢
  linarith

/-- A rounded reciprocal. -/
theorem rel_inv {u T L Q n : ℝ} (hu : u ≤ 1.1103e-16) (hT : T ≤ 1e-150) (hQ : 0 < Q) (hQ1 : Q ≤ 1e100) (h1 : |L - Q| ≤ 1.4e-15 * Q) (h2 : L ≠ 0 → |n - 1 / L| ≤ u * |1 / L| + T) : |n - 1 / Q| ≤ 1.52e-15 * (1 / Q) := by
  have hL := (abs_le.1 h1).1
  have hL1 : (1 - 1.4e-15) * Q ≤ L := by linarith
  have hL0 : 0 < L := lt_of_lt_of_le (by positivity) hL1
  have e1 : 1 / L - 1 / Q = -(L - Q) / Q * (1 / L) := by field_simp; ring
  have hi : 1 / L ≤ 1.00000001 * (1 / Q) := by
    rw [mul_one_div, div_le_div_iff₀ hL0 hQ]
    norm_num at hL1 ⊢
    linarith
  have h3 : |1 / L - 1 / Q| ≤ 1.4e-15 * (1 / L) := by
    rw [e1, abs_mul, abs_div, abs_neg, abs_of_pos hQ, abs_of_pos (one_div_pos.2 hL0)]
    exact mul_le_mul_of_nonneg_right (by rw [div_le_iff₀ hQ]; exact h1) (one_div_pos.2 hL0).le
  have h4 := h2 hL0.ne'
  rw [abs_of_pos (one_div_pos.2 hL0)] at h4
  have h5 : u * (1 / L) ≤ 1.1103e-16 * (1 / L) := mul_le_mul_of_nonneg_right hu (one_div_pos.2 hL0).le
  have h6 : 1e-100 ≤ 1 / Q := by
    rw [le_div_iff₀ hQ]
    norm_num at hQ1 ⊢
    linarith
  have h7 := abs_sub_le n (1 / L) (1 / Q)
  generalize 1 / L = a at *
  generalize 1 / Q = b at *
  norm_num at h3 h5 h6 h7 hi hT ⊢
  linarith

/-- The value of a logarithmic prior, from a rounded ratio and a rounded argument. -/
theorem logUniform_round (hO : IsPostDouble O) {lo hi y R x : ℝ} (hR : 2 ≤ R) (hR1 : R ≤ 1e100) (hx : 0 < x) (h1 : |O.div hi lo - R| ≤ 3.4e-16 * R) (h2 : |y - x| ≤ 1.1103e-16 * x) :
    |O.logUniform lo hi y - log (1 / (x * log R))| ≤ 3e-15 * (|log (log R)| + |log x|) + 2e-15 := by
  have hu := unit_le
  have hT := tiny_le2
  have hl2 : 0.69 ≤ log R := by
    have := log_le_log (by norm_num) hR
    have := log_two_gt_d9
    norm_num at this ⊢
    linarith
  have hl0 : 0 < log R := lt_of_lt_of_le (by norm_num) hl2
  have hl1 : log R ≤ 1e100 := (log_le_self (by linarith)).trans hR1
  have a1 := rel_log (by linarith : 0 < R) (by norm_num) (by norm_num) lib_le h1 (hO.like.log _)
  rw [abs_of_pos hl0] at a1
  have a2 : |O.log (O.div hi lo) - log R| ≤ 1.4e-15 * log R := by
    refine a1.trans ?_
    norm_num at hl2 ⊢
    linarith
  have a3 := rel_inv hu hT hl0 hl1 a2 (hO.like.ops.div 1 _)
  have a4 := rel_log (one_div_pos.2 hl0) (by norm_num) (by norm_num) lib_le a3 (hO.like.log _)
  rw [one_div (log R), log_inv, abs_neg] at a4
  have a5 := rel_log hx (by norm_num) (by norm_num) lib_le h2 (hO.like.log _)
  have f := hO.like.ops.sub (O.log (O.div 1 (O.log (O.div hi lo)))) (O.log y)
  unfold PostOps.logUniform
  rw [one_div, log_inv, log_mul hx.ne' hl0.ne']
  generalize O.sub (O.log (O.div 1 (O.log (O.div hi lo)))) (O.log y) = g at *
  generalize O.log (O.div 1 (O.log (O.div hi lo))) = p at *
  generalize O.log y = q at *
  generalize log (log R) = P at *
  generalize log x = X at *
  have hP := abs_nonneg P
  have hX := abs_nonneg X
  have d1 : |p - q - -(X + P)| ≤ (8.9e-16 * |P| + 1.0001 * 1.52e-15) + (8.9e-16 * |X| + 1.0001 * 1.1103e-16) := by
    rw [show p - q - -(X + P) = (p - -P) - (q - X) by ring]
    exact (abs_sub _ _).trans (add_le_add a4 a5)
  have d2 : |-(X + P)| ≤ |P| + |X| := by rw [abs_neg]; linarith [abs_add_le X P]
  have d3 := abs_of_near d1 d2
  have d4 : unitRound * |p - q| ≤ 1.1103e-16 * (|P| + |X| + ((8.9e-16 * |P| + 1.0001 * 1.52e-15) + (8.9e-16 * |X| + 1.0001 * 1.1103e-16))) :=
    mul_le_mul hu d3 (abs_nonneg _) (by norm_num)
  have d5 := abs_sub_le g (p - q) (-(X + P))
  norm_num at d1 d4 d5 f ⊢
  linarith

theorem jeffreys_round (hO : IsPostDouble O) (lo hi x : ℝ) (hw : (RPrior.jeffreys lo hi).Wide) (ha : (RPrior.jeffreys lo hi).Allows x) :
    |O.logUniform lo hi x - (RPrior.jeffreys lo hi).logDensity x| ≤ 3e-15 * (RPrior.jeffreys lo hi).size x + 2e-15 := by
  obtain ⟨w1, w2, w3⟩ := hw
  have hR : 2 ≤ hi / lo := by rwa [le_div_iff₀ w1]
  refine logUniform_round hO hR (by rwa [div_le_iff₀ w1]) (lt_of_lt_of_le w1 ha.1) ?_ ?_
  · refine (hO.like.ops.div hi lo w1.ne').trans ?_
    rw [abs_of_pos (by linarith)]
    have := mul_le_mul_of_nonneg_right unit_le (show 0 ≤ hi / lo by linarith)
    have hT := tiny_le2
    norm_num at this hT ⊢
    linarith
  · rw [sub_self, abs_zero]
    have := lt_of_lt_of_le w1 ha.1
    positivity

/-- The rounded ratio of two rounded differences. -/
theorem rel_ratio {u T a A b B q : ℝ} (hu : u ≤ 1.1103e-16) (hT : T ≤ 1e-150) (hB : 0 < B) (hA : 2 * B ≤ A) (h1 : |a - A| ≤ u * A) (h2 : |b - B| ≤ u * B) (h3 : b ≠ 0 → |q - a / b| ≤ u * |a / b| + T) :
    |q - A / B| ≤ 3.4e-16 * (A / B) := by
  have hA0 : 0 < A := by linarith
  have h1' : |a - A| ≤ 1.1103e-16 * A := h1.trans (mul_le_mul_of_nonneg_right hu hA0.le)
  have h2' : |b - B| ≤ 1.1103e-16 * B := h2.trans (mul_le_mul_of_nonneg_right hu hB.le)
  have hb1 : (1 - 1.1103e-16) * B ≤ b := by linarith [(abs_le.1 h2').1]
  have hb : 0 < b := lt_of_lt_of_le (by positivity) hb1
  have ha1 : (1 - 1.1103e-16) * A ≤ a := by linarith [(abs_le.1 h1').1]
  have ha : 0 < a := lt_of_lt_of_le (by positivity) ha1
  have hab : a / b ≤ 1.0000000001 * (A / B) := by
    rw [← mul_div_assoc, div_le_div_iff₀ hb hB]
    have e1 : a * B ≤ (1 + 1.1103e-16) * A * B := mul_le_mul_of_nonneg_right (by linarith [(abs_le.1 h1').2]) hB.le
    have e2 : A * ((1 - 1.1103e-16) * B) ≤ A * b := mul_le_mul_of_nonneg_left hb1 hA0.le
    have e3 : 0 < A * B := by positivity
    norm_num at e1 e2 ⊢
    linarith
  have e : a / b - A / B = ((a - A) - A * (b - B) / B) * (1 / b) := by field_simp; ring
  have hd : |a / b - A / B| ≤ 2.2207e-16 * (A / B) := by
    have k1 : |(a - A) - A * (b - B) / B| ≤ 2.2206e-16 * A := by
      refine (abs_sub _ _).trans ?_
      have : |A * (b - B) / B| ≤ 1.1103e-16 * A := by
        rw [abs_div, abs_mul, abs_of_pos hA0, abs_of_pos hB, div_le_iff₀ hB]
        have := mul_le_mul_of_nonneg_left h2' hA0.le
        linarith
      linarith
    have k2 : 1 / b ≤ 1.0000000001 * (1 / B) := by
      rw [mul_one_div, div_le_div_iff₀ hb hB]
      norm_num at hb1 ⊢
      linarith
    rw [e, abs_mul, abs_of_pos (one_div_pos.2 hb)]
    refine (mul_le_mul k1 k2 (one_div_pos.2 hb).le (by positivity)).trans ?_
    have k3 : 0 < A / B := by positivity
    rw [show 2.2206e-16 * A * (1.0000000001 * (1 / B)) = 2.2206e-16 * 1.0000000001 * (A / B) by ring]
    exact mul_le_mul_of_nonneg_right (by norm_num) k3.le
  have h4 := h3 hb.ne'
  have hp : 0 < a / b := by positivity
  rw [abs_of_pos hp] at h4
  have h5 : u * (a / b) ≤ 1.1103e-16 * (1.0000000001 * (A / B)) := mul_le_mul hu hab hp.le (by norm_num)
  have h6 : 2 ≤ A / B := by rwa [le_div_iff₀ hB]
  have h7 := abs_sub_le q (a / b) (A / B)
  generalize a / b = s at *
  generalize A / B = r at *
  norm_num at hd h5 h7 hT ⊢
  linarith

theorem modJeffreys_round (hO : IsPostDouble O) (lo hi knee x : ℝ) (hw : (RPrior.modJeffreys lo hi knee).Wide) (ha : (RPrior.modJeffreys lo hi knee).Allows x) :
    |O.logUniform (O.sub lo knee) (O.sub hi knee) (O.sub x knee) - (RPrior.modJeffreys lo hi knee).logDensity x| ≤ 3e-15 * (RPrior.modJeffreys lo hi knee).size x + 2e-15 := by
  obtain ⟨w1, w2, w3⟩ := hw
  have hx : 0 < x - knee := lt_of_lt_of_le w1 (by linarith [ha.1])
  have s : ∀ a, 0 < a - knee → |O.sub a knee - (a - knee)| ≤ unitRound * (a - knee) := by
    intro a h
    have := hO.like.ops.sub a knee
    rwa [abs_of_pos h] at this
  refine logUniform_round hO (by rwa [le_div_iff₀ w1]) (by rwa [div_le_iff₀ w1]) hx ?_ ?_
  · exact rel_ratio unit_le tiny_le2 w1 w2 (s hi (by linarith)) (s lo w1) (hO.like.ops.div _ _)
  · exact (s x hx).trans (mul_le_mul_of_nonneg_right unit_le hx.le)

/-- The error of a rounded sum of rounded numbers. -/
theorem sum_round {A : Ops} (hA : IsDouble A) {α : Type} (l : List α) (g f m d : α → ℝ) (h : ∀ x ∈ l, |g x - f x| ≤ d x ∧ |f x| ≤ m x) {n : Nat} (hn : n ≤ 100000) {s : ℝ} (hs : IsSum A n (l.map g) s) :
    |s - (l.map f).sum| ≤ 1.0001 * (l.map d).sum + 1.11035e-16 * n * (l.map m).sum := by
  have h1 := (sum_tree hA hs).1
  have hG := grow_le' n (hn.trans (by norm_num))
  have hG0 : 0 ≤ (1 + unitRound) ^ n - 1 := by have := one_le_pow₀ (show 1 ≤ 1 + unitRound by linarith [unit_pos]) (n := n); linarith
  have hd : |(l.map g).sum - (l.map f).sum| ≤ (l.map d).sum ∧ ((l.map g).map abs).sum ≤ (l.map m).sum + (l.map d).sum ∧ 0 ≤ (l.map m).sum ∧ 0 ≤ (l.map d).sum := by
    clear hs h1
    induction l with
    | nil => simp
    | cons a l ih =>
      obtain ⟨i1, i2, i3, i4⟩ := ih (fun x hx => h x (List.mem_cons_of_mem _ hx))
      obtain ⟨a1, a2⟩ := h a (List.mem_cons_self ..)
      have a3 := abs_of_near a1 a2
      have a4 := abs_nonneg (g a - f a)
      have a5 := abs_nonneg (f a)
      simp only [List.map_cons, List.sum_cons]
      refine ⟨?_, by linarith, by linarith, by linarith⟩
      rw [show g a + (l.map g).sum - (f a + (l.map f).sum) = (g a - f a) + ((l.map g).sum - (l.map f).sum) by ring]
      exact (abs_add_le _ _).trans (by linarith)
  obtain ⟨d1, d2, d3, d4⟩ := hd
  have e1 : ((1 + unitRound) ^ n - 1) * ((l.map g).map abs).sum ≤ 1.11035e-16 * n * ((l.map m).sum + (l.map d).sum) :=
    mul_le_mul hG d2 (sum_abs_nonneg _) (by positivity)
  have hn' : (n : ℝ) ≤ 100000 := by exact_mod_cast hn
  have e2 : 1.11035e-16 * n * (l.map d).sum ≤ 1e-5 * (l.map d).sum := mul_le_mul_of_nonneg_right (by norm_num; linarith) d4
  have e3 := abs_sub_le s (l.map g).sum (l.map f).sum
  have e4 : 1.11035e-16 * n * ((l.map m).sum + (l.map d).sum) = 1.11035e-16 * n * (l.map m).sum + 1.11035e-16 * n * (l.map d).sum := by ring
  rw [e4] at e1
  have e5 := h1.trans e1
  clear e1 h1 hG hG0 e4
  generalize (1.11035e-16 : ℝ) * n * (l.map m).sum = X at *
  generalize (1.11035e-16 : ℝ) * n * (l.map d).sum = Y at *
  norm_num at e2 ⊢
  linarith

end Radvel
