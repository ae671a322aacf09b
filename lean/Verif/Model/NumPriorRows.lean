import Verif.Model.NumPrior

/-! # `NumericalPrior` for several parameters, /repo/radvel/prior.py 452-468 -/

namespace Radvel

/-- `NumericalPrior.__init__`, /repo/radvel/prior.py 452-458, for one row of values for each parameter. `np.histogram` flattens its argument. `kde` is whether `gaussian_kde` raises; it does if the values of some
parameter are all equal, so that the cases in which `NumPrior.new` raises instead are not reached after it, except for no bins. -/
noncomputable def NumPrior.newRows (kde : List (List ℝ) → Except PyErr Unit) (nb : Nat) (rows : List (List ℝ)) : Except PyErr NumPrior := do
  kde rows
  NumPrior.new nb rows.flatten

end Radvel
