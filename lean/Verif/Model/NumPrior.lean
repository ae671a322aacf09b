import Verif.Model.Prior

/-!
# `NumericalPrior`: the transform of nested sampling, /repo/radvel/prior.py 451-468

For one parameter. Numbers are exact reals. `Prior.numerical` in Model/Prior holds the transform as a function; here it is computed as the code does.
-/

namespace Radvel
open Classical

/-- The edges that `np.histogram` computes for a number of bins: `nb + 1` equally spaced numbers from the smallest to the largest value, /repo/radvel/prior.py 456. -/
noncomputable def binEdge (lo hi : ℝ) (nb i : Nat) : ℝ := lo + i * ((hi - lo) / nb)

/-- Whether `np.histogram` counts `v` in bin `j`: bins contain their left edge, the last one also its right edge. Used for /repo/radvel/prior.py 456. -/
noncomputable def inHistBin (lo hi : ℝ) (nb j : Nat) (v : ℝ) : Bool :=
  decide (binEdge lo hi nb j ≤ v ∧ (v < binEdge lo hi nb (j + 1) ∨ j + 1 = nb ∧ v ≤ binEdge lo hi nb (j + 1)))

/-- `hist` of `np.histogram(values, bins=bins)`, /repo/radvel/prior.py 456. -/
noncomputable def histOf (lo hi : ℝ) (nb : Nat) (values : List ℝ) : List Nat := (List.range nb).map fun j => values.countP (inHistBin lo hi nb j)

/-- `np.cumsum`, starting from `acc`. Used for /repo/radvel/prior.py 457. -/
noncomputable def cumsum (acc : ℝ) : List ℝ → List ℝ
  | [] => []
  | x :: t => (acc + x) :: cumsum (acc + x) t

/-- The attributes `hist_cumulative` and `bin_middle`, /repo/radvel/prior.py 457-458. -/
structure NumPrior where
  cumulative : List ℝ
  middle : List ℝ

/-- The smallest value. Used for /repo/radvel/prior.py 456. -/
noncomputable def least (v : ℝ) (vs : List ℝ) : ℝ := vs.foldl min v

/-- The largest value. Used for /repo/radvel/prior.py 456. -/
noncomputable def greatest (v : ℝ) (vs : List ℝ) : ℝ := vs.foldl max v

/-- `NumericalPrior.__init__`, /repo/radvel/prior.py 452-458, for one parameter and finite values. `nb` is the number of bins, given or chosen by NumPy's rule `'auto'`. `gaussian_kde` raises `ValueError`
for fewer than two values and `LinAlgError` if all are equal (their covariance is singular); `np.histogram` raises `ValueError` for no bins. -/
noncomputable def NumPrior.new (nb : Nat) (values : List ℝ) : Except PyErr NumPrior :=
  match values with
  | [] => .error .valueError
  | [_] => .error .valueError
  | v :: w :: vs =>
    if least v (w :: vs) = greatest v (w :: vs) then .error .linAlgError
    else if nb = 0 then .error .valueError
    else
      let lo := least v (w :: vs)
      let hi := greatest v (w :: vs)
      let hist := histOf lo hi nb values
      .ok { cumulative := cumsum 0 (hist.map fun c : Nat => (c : ℝ) / hist.sum)
            middle := (List.range nb).map fun j => (binEdge lo hi nb j + binEdge lo hi nb (j + 1)) / 2 }

/-- `np.interp` from the sample point `p` on, for `u` not less than `p.1`: the piece whose left end is the last sample point not greater than `u`; beyond the last one its value.
Used for /repo/radvel/prior.py 468. -/
noncomputable def interpFrom (u : ℝ) (p : ℝ × ℝ) : List (ℝ × ℝ) → ℝ
  | [] => p.2
  | q :: t =>
    if u < q.1 then (if p.1 = u then p.2 else (q.2 - p.2) / (q.1 - p.1) * (u - p.1) + p.2)
    else interpFrom u q t

/-- `np.interp(u, xp, fp)` for sample points in non-decreasing order: `ValueError` without sample points, before the first one its value. Used for /repo/radvel/prior.py 468. -/
noncomputable def npInterp (u : ℝ) : List (ℝ × ℝ) → Except PyErr ℝ
  | [] => .error .valueError
  | p :: t => .ok (if u < p.1 then p.2 else interpFrom u p t)

/-- `NumericalPrior.transform`, /repo/radvel/prior.py 467-468. -/
noncomputable def NumPrior.transform (P : NumPrior) (u : ℝ) : Except PyErr ℝ := npInterp u (P.cumulative.zip P.middle)

end Radvel
