import Mathlib.Analysis.SpecialFunctions.Pow.Real
import Mathlib.Algebra.BigOperators.Group.List.Basic

/-!
# Mean and variance of a list of reals

The mathematical meaning of `np.mean` and `np.var` (population variance). Used by the model of
/repo/radvel/mcmc.py and by the statements about it.
-/

namespace Radvel

/-- The arithmetic mean (`np.mean`, also used in the model of /repo/radvel/likelihood.py 379). -/
noncomputable def mean (l : List ℝ) : ℝ := l.sum / l.length

/-- The population variance: the mean squared distance from the mean. -/
noncomputable def pvar (l : List ℝ) : ℝ := mean (l.map fun x => (x - mean l) ^ 2)

end Radvel
