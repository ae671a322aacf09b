import Mathlib.Data.Real.Basic

/-!
# The bins of `timebin` with a rounded upper limit (`radvel/utils.py` 240-258)

Only the times and how they are divided; means and errors of the bins are in `Verif.Model.Binning`.
-/

namespace Radvel

/-- The `while` loop of `timebin`, /repo/radvel/utils.py 244-258, for at most `fuel` turns, from index `ct` on; `out`: the times in each of the bins so far. The sum in line 246 is rounded by `rnd`. -/
noncomputable def splitRounded (rnd : ℝ → ℝ) (binsize : ℝ) (time : List ℝ) : Nat → Nat → List (List ℝ) → Option (List (List ℝ))
  | 0, _, _ => none
  | fuel + 1, ct, out =>
    match time[ct]? with
    | none => some out
    | some t0 =>
      let ind := time.filter (fun t => decide (t0 ≤ t) && decide (t < rnd (t0 + binsize)))
      splitRounded rnd binsize time fuel (ct + ind.length) (out ++ [ind])

end Radvel
