import Verif.Model.Prior
import Mathlib.Probability.Distributions.Gaussian.Real
import Mathlib.Analysis.SpecialFunctions.Integrals.Basic
import Mathlib.MeasureTheory.Integral.IntervalIntegral.Basic

/-!
# C41, C42: the one-parameter priors are probability densities and their transforms are inverse distribution functions
-/

namespace Radvel
open Real MeasureTheory Set

/-- `logpdf` is the logarithm of the function `f` (with `exp(-inf) = 0`), which is a probability density. -/
structure IsLogDensity (logpdf : ℝ → Fl) (f : ℝ → ℝ) : Prop where
  exp_eq : ∀ x, (logpdf x).exp = some (f x)
  nonneg : ∀ x, 0 ≤ f x
  integrable : Integrable f
  total : ∫ x, f x = 1

/-- `T` is the inverse of the distribution function of `f` on `(0, 1)`: increasing, and the probability below `T u` is `u`. -/
structure IsQuantile (f : ℝ → ℝ) (T : ℝ → ℝ) : Prop where
  mono : ∀ u v, 0 < u → u < v → v < 1 → T u < T v
  prob : ∀ u, 0 < u → u < 1 → ∫ x in Iic (T u), f x = u

/-- C41, Gaussian: every centre, every width other than zero. -/
theorem C41_gaussian (mu sigma : ℝ) (hs : sigma ≠ 0) :
    IsLogDensity (gaussianLogpdf mu sigma) (fun x => (√(2 * π * sigma ^ 2))⁻¹ * exp (-(x - mu) ^ 2 / (2 * sigma ^ 2))) := by
  let v : NNReal := ⟨sigma ^ 2, by positivity⟩
  have hv : v ≠ 0 := by
    intro h
    have : sigma ^ 2 = 0 := congrArg NNReal.toReal h
    exact hs (pow_eq_zero_iff (by norm_num) |>.1 this)
  have hpdf : (fun x => (√(2 * π * sigma ^ 2))⁻¹ * exp (-(x - mu) ^ 2 / (2 * sigma ^ 2))) = ProbabilityTheory.gaussianPDFReal mu v := rfl
  have hpos : 0 < 2 * π * sigma ^ 2 := by positivity
  refine ⟨?_, ?_, ?_, ?_⟩
  · intro x
    have hlog : log (sigma ^ 2 * 2 * π) = 2 * log (√(2 * π * sigma ^ 2)) := by
      rw [Real.log_sqrt hpos.le]
      rw [show sigma ^ 2 * 2 * π = 2 * π * sigma ^ 2 by ring]; ring
    simp only [gaussianLogpdf, hs, if_false, Fl.exp, Option.some.injEq]
    rw [hlog, Real.exp_sub, show (0.5 : ℝ) * (2 * log (√(2 * π * sigma ^ 2))) = log (√(2 * π * sigma ^ 2)) by ring,
      Real.exp_log (Real.sqrt_pos.2 hpos), div_eq_mul_inv, mul_comm]
    congr 2
    field_simp
    ring
  · intro x; positivity
  · rw [hpdf]; exact ProbabilityTheory.integrable_gaussianPDFReal mu v
  · rw [hpdf]; exact ProbabilityTheory.integral_gaussianPDFReal_eq_one mu hv

/-- C41, HardBounds: every finite interval; zero outside (and at the ends). -/
theorem C41_hardBounds (a b : ℝ) (h : a < b) :
    IsLogDensity (hardBoundsLogpdf (.fin a) (.fin b)) ((Ioo a b).indicator (fun _ => 1 / (b - a))) := by
  have hba : 0 < b - a := by linarith
  refine ⟨?_, ?_, ?_, ?_⟩
  · intro x
    unfold hardBoundsLogpdf
    by_cases hx : (Fl.fin a).ge x ∨ (Fl.fin b).le x
    · rw [if_pos hx, indicator_of_notMem]
      · rfl
      · rintro ⟨h1, h2⟩
        simp only [Fl.ge, Fl.le] at hx
        rcases hx with hx | hx <;> linarith
    · rw [if_neg hx]
      simp only [Fl.ge, Fl.le] at hx
      push Not at hx
      rw [indicator_of_mem (show x ∈ Ioo a b from hx)]
      show (Fl.log (b - a)).minus.exp = _
      rw [Fl.log_of_pos hba]
      simp [Fl.minus, Fl.exp, Real.exp_neg, Real.exp_log hba]
  · intro x
    apply indicator_nonneg
    intro _ _; positivity
  · rw [integrable_indicator_iff measurableSet_Ioo]
    exact integrableOn_const (by simp)
  · rw [integral_indicator measurableSet_Ioo, setIntegral_const]
    simp only [Measure.real, Real.volume_Ioo, ENNReal.toReal_ofReal hba.le, smul_eq_mul]
    field_simp

/-- C41, infinite HardBounds: with a non-finite bound the value is 0 inside the open interval and -inf outside (not normalised, as the code warns). -/
theorem C41_hardBounds_open (x : ℝ) (a : ℝ) :
    hardBoundsLogpdf (.fin a) .pos x = (if x ≤ a then .neg else .fin 0) ∧ hardBoundsLogpdf .neg (.fin a) x = (if a ≤ x then .neg else .fin 0) ∧
    hardBoundsLogpdf .neg .pos x = .fin 0 := by
  refine ⟨?_, ?_, ?_⟩ <;> simp [hardBoundsLogpdf, Fl.ge, Fl.le]

/-- The part of a density supported on `[a, b]` below `T`. -/
theorem integral_Iic_indicator (a b T : ℝ) (hT : a ≤ T) (hTb : T ≤ b) (g : ℝ → ℝ) :
    ∫ x in Iic T, (Icc a b).indicator g x = ∫ x in a..T, g x := by
  rw [setIntegral_indicator measurableSet_Icc]
  have : Iic T ∩ Icc a b = Icc a T := by
    ext x; simp only [mem_inter_iff, mem_Iic, mem_Icc]
    constructor
    · rintro ⟨h1, h2, h3⟩; exact ⟨h2, h1⟩
    · rintro ⟨h1, h2⟩; exact ⟨h2, h1, h2.trans hTb⟩
  rw [this, integral_Icc_eq_integral_Ioc, intervalIntegral.integral_of_le hT]

theorem jeffreysNorm_pos {a b : ℝ} (ha : 0 < a) (h : a < b) : 0 < log (b / a) :=
  Real.log_pos ((one_lt_div ha).2 h)

theorem exp_jeffreys {n y : ℝ} (hn : 0 < n) (hy : 0 < y) : (Fl.log n + (Fl.log y).minus).exp = some (n / y) := by
  rw [Fl.log_of_pos hn, Fl.log_of_pos hy]
  simp only [Fl.minus, Fl.fin_add_fin, Fl.exp]
  rw [← sub_eq_add_neg, Real.exp_sub, Real.exp_log hn, Real.exp_log hy]

/-- The shifted Jeffreys density integrates from `a` to `T`. -/
theorem integral_jeffreys (a c T n : ℝ) (hc : c < a) (hT : a ≤ T) :
    ∫ x in a..T, n / (x - c) = n * log ((T - c) / (a - c)) := by
  have h1 : ∀ x, n / (x - c) = n * (fun y => y⁻¹) (x - c) := by intro x; simp [div_eq_mul_inv]
  simp_rw [h1]
  rw [intervalIntegral.integral_const_mul, intervalIntegral.integral_comp_sub_right (fun y => y⁻¹) c,
    integral_inv_of_pos (by linarith) (by linarith)]

theorem modJeffreys_density (a b c : ℝ) (hc : c < a) (h : a < b) :
    IsLogDensity (modJeffreysLogpdf a b c) ((Icc a b).indicator (fun x => modJeffreysNorm a b c / (x - c))) := by
  have hl : 0 < log ((b - c) / (a - c)) := jeffreysNorm_pos (by linarith) (by linarith)
  have hn : 0 < modJeffreysNorm a b c := by unfold modJeffreysNorm; positivity
  refine ⟨?_, ?_, ?_, ?_⟩
  · intro x
    unfold modJeffreysLogpdf
    by_cases hx : x > b ∨ x < a
    · rw [if_pos hx, indicator_of_notMem]
      · rfl
      · rintro ⟨h1, h2⟩; rcases hx with hx | hx <;> linarith
    · rw [if_neg hx]
      push Not at hx
      rw [indicator_of_mem (show x ∈ Icc a b from ⟨hx.2, hx.1⟩)]
      exact exp_jeffreys hn (by linarith [hx.2])
  · intro x
    apply indicator_nonneg
    intro y hy
    have : 0 < y - c := by linarith [hy.1]
    positivity
  · rw [integrable_indicator_iff measurableSet_Icc]
    apply ContinuousOn.integrableOn_Icc
    apply ContinuousOn.div continuousOn_const (by fun_prop)
    intro x hx
    have := hx.1
    linarith
  · rw [integral_indicator measurableSet_Icc, integral_Icc_eq_integral_Ioc, ← intervalIntegral.integral_of_le h.le,
      integral_jeffreys a c b _ hc h.le]
    unfold modJeffreysNorm
    field_simp

/-- C41, Jeffreys: every `0 < minval < maxval`. -/
theorem C41_jeffreys (a b : ℝ) (ha : 0 < a) (h : a < b) :
    IsLogDensity (jeffreysLogpdf a b) ((Icc a b).indicator (fun x => 1 / (x * log (b / a)))) := by
  have h0 := modJeffreys_density a b 0 ha h
  have e1 : jeffreysLogpdf a b = modJeffreysLogpdf a b 0 := by
    funext x
    simp only [jeffreysLogpdf, modJeffreysLogpdf, jeffreysNorm, modJeffreysNorm, sub_zero]
    by_cases hx : x < a ∨ x > b
    · rw [if_pos hx, if_pos hx.symm]
    · rw [if_neg hx, if_neg (fun h => hx h.symm)]
  have e2 : (Icc a b).indicator (fun x => 1 / (x * log (b / a))) = (Icc a b).indicator (fun x => modJeffreysNorm a b 0 / (x - 0)) := by
    apply indicator_congr
    intro x hx
    simp only [modJeffreysNorm, sub_zero]
    rw [div_div, mul_comm]
  rw [e1, e2]; exact h0

/-- C41, ModifiedJeffreys: every `kneeval < minval < maxval`. -/
theorem C41_modJeffreys (a b c : ℝ) (hc : c < a) (h : a < b) :
    IsLogDensity (modJeffreysLogpdf a b c) ((Icc a b).indicator (fun x => 1 / ((x - c) * log ((b - c) / (a - c))))) := by
  have h0 := modJeffreys_density a b c hc h
  have e2 : (Icc a b).indicator (fun x => 1 / ((x - c) * log ((b - c) / (a - c)))) = (Icc a b).indicator (fun x => modJeffreysNorm a b c / (x - c)) := by
    apply indicator_congr
    intro x hx
    simp only [modJeffreysNorm]
    rw [div_div, mul_comm]
  rw [e2]; exact h0

/-- The value that `prior(params, vector)` returns for a one-parameter prior is its log density at the value in that parameter's row, in every state in which
the parameter has a row. -/
theorem C41_call (s : VState ℝ) (p : Prior) (k : Key) (i : Nat) (r : Row ℝ) (hk : p.param? = some k)
    (hi : s.indices.get? k = some i) (hr : s.rows[i]? = some r) : p.call s none = .ok (p.logpdf1 r.value) := by
  have hread : readPar s k = .ok r.value := by simp [readPar, hi, hr]
  cases p <;> simp [Prior.param?] at hk <;> subst hk <;> simp [Prior.call, hread]

example : (0 : ℝ) < 1 ∧ (1 : ℝ) < 2 ∧ (0.3 : ℝ) ≠ 0 ∧ (-1 : ℝ) < 1 := by norm_num

/-- C42, HardBounds: the transform stays strictly inside the bounds and inverts the distribution function. -/
theorem C42_hardBounds (ppf : ℝ → ℝ) (k : Key) (a b : ℝ) (h : a < b) :
    ∃ T, (∀ u, Prior.transform ppf (.hardBounds k (.fin a) (.fin b)) u = .ok (T u)) ∧ (∀ u, 0 < u → u < 1 → a < T u ∧ T u < b) ∧
      IsQuantile ((Ioo a b).indicator (fun _ => 1 / (b - a))) T := by
  have hba : 0 < b - a := by linarith
  have hin : ∀ u, 0 < u → u < 1 → a < a + u * (b - a) ∧ a + u * (b - a) < b := by
    intro u h0 h1
    constructor
    · nlinarith
    · nlinarith
  refine ⟨fun u => a + u * (b - a), fun u => rfl, hin, ?_, ?_⟩
  · intro u v h0 huv h1; nlinarith
  · intro u h0 h1
    obtain ⟨i1, i2⟩ := hin u h0 h1
    rw [setIntegral_indicator measurableSet_Ioo]
    have : Iic (a + u * (b - a)) ∩ Ioo a b = Ioc a (a + u * (b - a)) := by
      ext x; simp only [mem_inter_iff, mem_Iic, mem_Ioo, mem_Ioc]
      constructor
      · rintro ⟨g1, g2, g3⟩; exact ⟨g2, g1⟩
      · rintro ⟨g1, g2⟩; exact ⟨g2, g1, lt_of_le_of_lt g2 i2⟩
    rw [this, setIntegral_const]
    simp only [Measure.real, Real.volume_Ioc, smul_eq_mul]
    rw [ENNReal.toReal_ofReal (by linarith)]
    field_simp
    ring

theorem modJeffreys_quantile (a b c : ℝ) (hc : c < a) (h : a < b) :
    (∀ u, 0 < u → u < 1 → a ≤ c + (a - c) * exp (u / modJeffreysNorm a b c) ∧ c + (a - c) * exp (u / modJeffreysNorm a b c) ≤ b) ∧
      IsQuantile ((Icc a b).indicator (fun x => modJeffreysNorm a b c / (x - c))) (fun u => c + (a - c) * exp (u / modJeffreysNorm a b c)) := by
  have hac : 0 < a - c := by linarith
  have hbc : 0 < b - c := by linarith
  have hl : 0 < log ((b - c) / (a - c)) := jeffreysNorm_pos hac (by linarith)
  have hn : 0 < modJeffreysNorm a b c := by unfold modJeffreysNorm; positivity
  have hinv : ∀ u, u / modJeffreysNorm a b c = u * log ((b - c) / (a - c)) := by
    intro u; unfold modJeffreysNorm; field_simp
  have hin : ∀ u, 0 < u → u < 1 → a ≤ c + (a - c) * exp (u / modJeffreysNorm a b c) ∧ c + (a - c) * exp (u / modJeffreysNorm a b c) ≤ b := by
    intro u h0 h1
    rw [hinv]
    constructor
    · have : 1 ≤ exp (u * log ((b - c) / (a - c))) := Real.one_le_exp (by positivity)
      nlinarith
    · have : exp (u * log ((b - c) / (a - c))) ≤ (b - c) / (a - c) := by
        conv_rhs => rw [← Real.exp_log (show 0 < (b - c) / (a - c) by positivity)]
        apply Real.exp_le_exp.2
        nlinarith
      have h2 : (a - c) * exp (u * log ((b - c) / (a - c))) ≤ (a - c) * ((b - c) / (a - c)) := mul_le_mul_of_nonneg_left this hac.le
      rw [mul_div_cancel₀ _ hac.ne'] at h2
      linarith
  refine ⟨hin, ?_, ?_⟩
  · intro u v h0 huv h1
    have : exp (u / modJeffreysNorm a b c) < exp (v / modJeffreysNorm a b c) := Real.exp_lt_exp.2 (div_lt_div_of_pos_right huv hn)
    show c + (a - c) * exp (u / modJeffreysNorm a b c) < c + (a - c) * exp (v / modJeffreysNorm a b c)
    nlinarith
  · intro u h0 h1
    obtain ⟨i1, i2⟩ := hin u h0 h1
    show ∫ x in Iic (c + (a - c) * exp (u / modJeffreysNorm a b c)), _ = u
    rw [integral_Iic_indicator a b _ i1 i2, integral_jeffreys a c _ _ hc i1]
    rw [show (c + (a - c) * exp (u / modJeffreysNorm a b c) - c) / (a - c) = exp (u / modJeffreysNorm a b c) by
      rw [add_sub_cancel_left, mul_div_cancel_left₀ _ hac.ne'], Real.log_exp]
    field_simp

/-- C42, Jeffreys. -/
theorem C42_jeffreys (ppf : ℝ → ℝ) (k : Key) (a b : ℝ) (ha : 0 < a) (h : a < b) :
    ∃ T, (∀ u, Prior.transform ppf (.jeffreys k a b) u = .ok (T u)) ∧ (∀ u, 0 < u → u < 1 → a ≤ T u ∧ T u ≤ b) ∧
      IsQuantile ((Icc a b).indicator (fun x => 1 / (x * log (b / a)))) T := by
  obtain ⟨q1, q2⟩ := modJeffreys_quantile a b 0 ha h
  have hT : (fun u => a * exp (u * log (b / a))) = fun u => 0 + (a - 0) * exp (u / modJeffreysNorm a b 0) := by
    funext u
    have hl := jeffreysNorm_pos ha h
    simp only [modJeffreysNorm, sub_zero, zero_add]
    congr 2
    field_simp
  have e2 : (Icc a b).indicator (fun x => 1 / (x * log (b / a))) = (Icc a b).indicator (fun x => modJeffreysNorm a b 0 / (x - 0)) := by
    apply indicator_congr
    intro x hx
    simp only [modJeffreysNorm, sub_zero]
    rw [div_div, mul_comm]
  refine ⟨fun u => a * exp (u * log (b / a)), fun u => rfl, ?_, ?_⟩
  · rw [hT]; exact q1
  · rw [hT, e2]; exact q2

/-- C42, ModifiedJeffreys. -/
theorem C42_modJeffreys (ppf : ℝ → ℝ) (k : Key) (a b c : ℝ) (hc : c < a) (h : a < b) :
    ∃ T, (∀ u, Prior.transform ppf (.modJeffreys k a b c) u = .ok (T u)) ∧ (∀ u, 0 < u → u < 1 → a ≤ T u ∧ T u ≤ b) ∧
      IsQuantile ((Icc a b).indicator (fun x => 1 / ((x - c) * log ((b - c) / (a - c))))) T := by
  obtain ⟨q1, q2⟩ := modJeffreys_quantile a b c hc h
  have e2 : (Icc a b).indicator (fun x => 1 / ((x - c) * log ((b - c) / (a - c)))) = (Icc a b).indicator (fun x => modJeffreysNorm a b c / (x - c)) := by
    apply indicator_congr
    intro x hx
    simp only [modJeffreysNorm]
    rw [div_div, mul_comm]
  refine ⟨_, fun u => rfl, q1, ?_⟩
  rw [e2]; exact q2

/-- C42, infinite HardBounds have no transform: the call raises. -/
theorem C42_hardBounds_infinite (ppf : ℝ → ℝ) (k : Key) (a : ℝ) (u : ℝ) :
    Prior.transform ppf (.hardBounds k (.fin a) .pos) u = .error .valueError ∧
    Prior.transform ppf (.hardBounds k .neg (.fin a)) u = .error .valueError := ⟨rfl, rfl⟩

end Radvel
