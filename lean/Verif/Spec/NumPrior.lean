import Mathlib.Data.Real.Basic

/-! # Samples, their range and their quantiles -/

namespace Radvel
open Classical

/-- The smallest and the largest value of a sample. -/
def SampleRange (values : List ℝ) (lo hi : ℝ) : Prop := lo ∈ values ∧ hi ∈ values ∧ ∀ v ∈ values, lo ≤ v ∧ v ≤ hi

/-- The fraction of a sample below `x`. -/
noncomputable def fracBelow (values : List ℝ) (x : ℝ) : ℝ := (values.countP fun v => decide (v < x)) / values.length

/-- The fraction of a sample not above `x`. -/
noncomputable def fracUpTo (values : List ℝ) (x : ℝ) : ℝ := (values.countP fun v => decide (v ≤ x)) / values.length

/-- `x` is a `u`-quantile of the sample: at most the fraction `u` lies below it, and at least the fraction `u` not above it. -/
def SampleQuantile (values : List ℝ) (u x : ℝ) : Prop := fracBelow values x ≤ u ∧ u ≤ fracUpTo values x

end Radvel
