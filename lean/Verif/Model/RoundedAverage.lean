import Verif.Model.Binning

/-!
# The averages of `timebin` with rounded operations (`radvel/utils.py` 247-257)

`ind` are the observations of one bin; `sum` is `np.sum`, whose order of additions is not fixed here.
-/

namespace Radvel
open Real

/-- `(1./meas_err)**2`, /repo/radvel/utils.py 248: numpy squares by a product. -/
noncomputable def Pt.weightRounded (rnd : ℝ → ℝ) (p : Pt) : ℝ := rnd (rnd (1 / p.err) * rnd (1 / p.err))

open Classical in
/-- `np.sum(wt*x[ind])` with normalised weights, /repo/radvel/utils.py 248-252; nan if an error is zero, as in `weighted`. -/
noncomputable def weightedRounded (rnd : ℝ → ℝ) (sum : List ℝ → ℝ) (f : Pt → ℝ) (ind : List Pt) : Option ℝ :=
  if ∃ p ∈ ind, p.err = 0 then none
  else
    let total := sum (ind.map (Pt.weightRounded rnd))
    some (sum (ind.map (fun p => rnd (rnd (p.weightRounded rnd / total) * f p))))

open Classical in
/-- `1./np.sqrt(np.sum(1./(meas_err[ind])**2))`, /repo/radvel/utils.py 253; 0 if an error is zero, as in `binError`. -/
noncomputable def binErrorRounded (rnd : ℝ → ℝ) (sum : List ℝ → ℝ) (ind : List Pt) : ℝ :=
  if ∃ p ∈ ind, p.err = 0 then 0 else rnd (1 / rnd √(sum (ind.map (fun p => rnd (1 / rnd (p.err * p.err))))))

end Radvel
