import Mathlib.Analysis.Matrix.Order
import Mathlib.LinearAlgebra.Matrix.PosDef
import Mathlib.Analysis.SpecialFunctions.Exponential
import Mathlib.Analysis.SpecialFunctions.Trigonometric.Basic

/-! Positive semidefinite kernels: products, exponentials, the squared exponential and the periodic kernel. -/

namespace Radvel
open Real Matrix

/-- A function of two arguments is a positive semidefinite kernel if all its (finite) matrices are. -/
def PSDKernel {ι : Type} (k : ι → ι → ℝ) : Prop := (Matrix.of k).PosSemidef

theorem PSDKernel.mul {ι : Type} {k l : ι → ι → ℝ} (hk : PSDKernel k) (hl : PSDKernel l) : PSDKernel (fun i j => k i j * l i j) :=
  PosSemidef.hadamard hk hl

theorem PSDKernel.add {ι : Type} {k l : ι → ι → ℝ} (hk : PSDKernel k) (hl : PSDKernel l) : PSDKernel (fun i j => k i j + l i j) :=
  PosSemidef.add hk hl

theorem PSDKernel.rankOne {ι : Type} (u : ι → ℝ) : PSDKernel (fun i j => u i * u j) := by
  refine ⟨?_, ?_⟩
  · ext i j; simp [mul_comm]
  · intro x
    have : (x.sum fun i xi => x.sum fun j xj => star xi * (Matrix.of fun i j => u i * u j) i j * xj) = (x.sum fun i xi => xi * u i) * (x.sum fun i xi => xi * u i) := by
      simp only [Finsupp.sum, Finset.sum_mul_sum]
      apply Finset.sum_congr rfl; intro i _
      apply Finset.sum_congr rfl; intro j _
      simp; ring
    rw [this]
    exact mul_self_nonneg _

theorem PSDKernel.const {ι : Type} {c : ℝ} (hc : 0 ≤ c) : PSDKernel (fun _ _ : ι => c) := by
  have := PSDKernel.rankOne (fun _ : ι => √c)
  simpa [mul_self_sqrt hc] using this

theorem PSDKernel.smul {ι : Type} {k : ι → ι → ℝ} (hk : PSDKernel k) {c : ℝ} (hc : 0 ≤ c) : PSDKernel (fun i j => c * k i j) :=
  (PSDKernel.const hc).mul hk

theorem PSDKernel.pow {ι : Type} {k : ι → ι → ℝ} (hk : PSDKernel k) (n : Nat) : PSDKernel (fun i j => k i j ^ n) := by
  induction n with
  | zero => simpa using PSDKernel.const (ι := ι) (c := 1) zero_le_one
  | succ n ih =>
    have := ih.mul hk
    simpa [pow_succ] using this

theorem PSDKernel.exp {ι : Type} {k : ι → ι → ℝ} (hk : PSDKernel k) : PSDKernel (fun i j => Real.exp (k i j)) := by
  refine ⟨?_, ?_⟩
  · ext i j
    have := hk.1.apply i j
    simp at this
    simp [this]
  · intro x
    have hterm : ∀ n : ℕ, 0 ≤ x.sum fun i xi => x.sum fun j xj => star xi * (k i j ^ n / n.factorial) * xj := by
      intro n
      have h1 := (hk.pow n).2 x
      have h2 : (x.sum fun i xi => x.sum fun j xj => star xi * (k i j ^ n / n.factorial) * xj)
          = (1 / (n.factorial : ℝ)) * (x.sum fun i xi => x.sum fun j xj => star xi * (Matrix.of fun i j => k i j ^ n) i j * xj) := by
        simp only [Finsupp.sum, Finset.mul_sum]
        apply Finset.sum_congr rfl; intro i _
        apply Finset.sum_congr rfl; intro j _
        simp; ring
      rw [h2]
      exact mul_nonneg (by positivity) h1
    have hs : HasSum (fun n : ℕ => x.sum fun i xi => x.sum fun j xj => star xi * (k i j ^ n / n.factorial) * xj)
        (x.sum fun i xi => x.sum fun j xj => star xi * Real.exp (k i j) * xj) := by
      simp only [Finsupp.sum]
      apply hasSum_sum; intro i _
      apply hasSum_sum; intro j _
      apply HasSum.mul_right
      apply HasSum.mul_left
      have := NormedSpace.expSeries_div_hasSum_exp (k i j)
      rw [← Real.exp_eq_exp_ℝ] at this
      exact this
    exact hs.nonneg hterm

/-- The squared exponential kernel. -/
theorem PSDKernel.sqExp (l : ℝ) : PSDKernel (fun t u : ℝ => Real.exp (-(t - u) ^ 2 / l ^ 2)) := by
  have h1 : PSDKernel (fun t u : ℝ => Real.exp (-t ^ 2 / l ^ 2) * Real.exp (-u ^ 2 / l ^ 2)) := PSDKernel.rankOne (fun t => Real.exp (-t ^ 2 / l ^ 2))
  have h2 : PSDKernel (fun t u : ℝ => Real.exp ((2 / l ^ 2) * (t * u))) := ((PSDKernel.rankOne (fun t : ℝ => t)).smul (by positivity)).exp
  have h3 := h1.mul h2
  have : (fun t u : ℝ => Real.exp (-(t - u) ^ 2 / l ^ 2)) = fun t u => Real.exp (-t ^ 2 / l ^ 2) * Real.exp (-u ^ 2 / l ^ 2) * Real.exp ((2 / l ^ 2) * (t * u)) := by
    funext t u
    rw [← Real.exp_add, ← Real.exp_add]
    congr 1
    ring
  rw [this]
  exact h3

/-- The periodic kernel. -/
theorem PSDKernel.per (P l : ℝ) : PSDKernel (fun t u : ℝ => Real.exp (-sin (π * |t - u| / P) ^ 2 / (2 * l ^ 2))) := by
  have h1 : PSDKernel (fun t u : ℝ => cos (2 * π * t / P) * cos (2 * π * u / P) + sin (2 * π * t / P) * sin (2 * π * u / P)) :=
    (PSDKernel.rankOne (fun t => cos (2 * π * t / P))).add (PSDKernel.rankOne (fun t => sin (2 * π * t / P)))
  have h2 := (PSDKernel.const (ι := ℝ) (c := Real.exp (-(1 / (4 * l ^ 2)))) (Real.exp_pos _).le).mul ((h1.smul (c := 1 / (4 * l ^ 2)) (by positivity)).exp)
  have : (fun t u : ℝ => Real.exp (-sin (π * |t - u| / P) ^ 2 / (2 * l ^ 2))) = fun t u => Real.exp (-(1 / (4 * l ^ 2))) *
      Real.exp ((1 / (4 * l ^ 2)) * (cos (2 * π * t / P) * cos (2 * π * u / P) + sin (2 * π * t / P) * sin (2 * π * u / P))) := by
    funext t u
    rw [← Real.exp_add, ← cos_sub]
    congr 1
    have e1 : sin (π * |t - u| / P) ^ 2 = sin (π * (t - u) / P) ^ 2 := by
      rcases abs_choice (t - u) with h | h
      · rw [h]
      · rw [h, mul_neg, neg_div, sin_neg, neg_sq]
    have e2 : 2 * π * t / P - 2 * π * u / P = 2 * (π * (t - u) / P) := by ring
    rw [e1, e2, cos_two_mul, cos_sq']
    ring
  rw [this]
  exact h2

end Radvel
