import Verif.Model.Numbers

/-!
# `round_sig` with a computed logarithm (`radvel/utils.py` 146-157)
-/

namespace Radvel

/-- `round_sig(x, sig)`, /repo/radvel/utils.py 146-157, where `np.log10` is `lg`. `round` is that of `pyRound` (exact decimals; see `Verif.Model.Numbers`). -/
noncomputable def roundSigWith (lg : ℝ → ℝ) (x : ℝ) (sig : ℤ) : ℝ :=
  if x = 0 then 0 else pyRound x (sig - ⌊lg |x|⌋ - 1)

end Radvel
