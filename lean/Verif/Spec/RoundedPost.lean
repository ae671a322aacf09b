import Verif.Model.RoundedPost
import Verif.Spec.RoundedLike

/-!
# Log-posteriors in double precision (specification side of C182)
-/

namespace Radvel

/-- Double precision for posteriors: the square is correct to four units in the last place, up to underflow. -/
structure IsPostDouble (O : PostOps) : Prop where
  like : IsLikeDouble O.toLikeOps
  pow2 : ∀ a, |O.pow2 a - a ^ 2| ≤ libErr * a ^ 2 + tiny

/-- Whether the prior allows the value. -/
def RPrior.Allows : RPrior → ℝ → Prop
  | .gaussian _ _, _ => True
  | .bounds lo hi, x => lo < x ∧ x < hi
  | .jeffreys lo hi, x => lo ≤ x ∧ x ≤ hi
  | .modJeffreys lo hi _, x => lo ≤ x ∧ x ≤ hi

/-- The logarithm of the density of an allowed value. -/
noncomputable def RPrior.logDensity : RPrior → ℝ → ℝ
  | .gaussian mu sigma, x => Real.log (ProbabilityTheory.gaussianPDFReal mu (sigma ^ 2).toNNReal x)
  | .bounds lo hi, _ => Real.log (1 / (hi - lo))
  | .jeffreys lo hi, x => Real.log (1 / (x * Real.log (hi / lo)))
  | .modJeffreys lo hi knee, x => Real.log (1 / ((x - knee) * Real.log ((hi - knee) / (lo - knee))))

/-- The size of the terms from which it is computed. -/
noncomputable def RPrior.size : RPrior → ℝ → ℝ
  | .gaussian mu sigma, x => ((x - mu) / sigma) ^ 2 / 2 + |Real.log (2 * Real.pi * sigma ^ 2)| / 2
  | .bounds lo hi, _ => |Real.log (hi - lo)|
  | .jeffreys lo hi, x => |Real.log (Real.log (hi / lo))| + |Real.log x|
  | .modJeffreys lo hi knee, x => |Real.log (Real.log ((hi - knee) / (lo - knee)))| + |Real.log (x - knee)|

/-- Widths for which nothing underflows or cancels: logarithmic priors extend over a factor of two at least. -/
def RPrior.Wide : RPrior → Prop
  | .gaussian _ sigma => 1e-50 ≤ |sigma|
  | .bounds _ _ => True
  | .jeffreys lo hi => 0 < lo ∧ 2 * lo ≤ hi ∧ hi ≤ 1e100 * lo
  | .modJeffreys lo hi knee => 0 < lo - knee ∧ 2 * (lo - knee) ≤ hi - knee ∧ hi - knee ≤ 1e100 * (lo - knee)

end Radvel
