import Mathlib.Data.Real.Sqrt

/-!
# Means and error bars of `fastbin` with rounded operations (`radvel/utils.py` 323-329)

For the values `y` of the points of one bin, in the order of the arrays.
-/

namespace Radvel

/-- One entry of `np.histogram(x, bins, weights=..)`, used in /repo/radvel/utils.py 324-325: the weights of the points of the bin are added one after the other. Simplification: numpy adds blocks of 65536 points separately and then their sums; here there is one block. -/
noncomputable def sumRounded (rnd : ℝ → ℝ) (l : List ℝ) : ℝ := l.foldl (fun s y => rnd (s + y)) 0

/-- `bindat`, /repo/radvel/utils.py 328. -/
noncomputable def binMeanRounded (rnd : ℝ → ℝ) (ys : List ℝ) : ℝ := rnd (sumRounded rnd ys / ys.length)

/-- The argument of the first square root in /repo/radvel/utils.py 329; the weights `y*y` are those of 325. -/
noncomputable def binVarRounded (rnd : ℝ → ℝ) (ys : List ℝ) : ℝ :=
  rnd (rnd (sumRounded rnd (ys.map (fun y => rnd (y * y))) / ys.length) - rnd (binMeanRounded rnd ys * binMeanRounded rnd ys))

open Classical in
/-- `binerr`, /repo/radvel/utils.py 329; `none` is nan, the square root of a negative number. Its warning is switched off in 327. -/
noncomputable def binErrRounded (rnd : ℝ → ℝ) (ys : List ℝ) : Option ℝ :=
  if binVarRounded rnd ys < 0 then none else some (rnd (rnd √(binVarRounded rnd ys) / rnd √ys.length))

end Radvel
