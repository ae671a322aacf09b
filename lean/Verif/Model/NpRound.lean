import Verif.Model.Numbers

/-!
# `round` of numpy's numbers with rounded operations (`radvel/utils.py` 157, 181, 185, 193)
-/

namespace Radvel

/-- `round(x, d)` of an `np.float64`, used in /repo/radvel/utils.py 157: numpy multiplies by `10 ** d`, rounds to a whole number (`rint`, ties to even) and divides by `10 ** d`; for negative `d` it divides by `10 ** -d` first and multiplies after, which is the same but for rounding and is rounded in the same two places. Simplification: the power of ten is exact, as it is up to `10 ** 22`. The steps are those that numpy documents for `np.round`; its source is not part of /repo. For a `float` of Python `round` is exact instead (`pyRound`, then rounded once). -/
noncomputable def npRound (rnd : ℝ → ℝ) (x : ℝ) (d : ℤ) : ℝ := rnd (roundEven (rnd (x * 10 ^ d)) / 10 ^ d)

end Radvel
