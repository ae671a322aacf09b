import Verif.Model.Mcmc

/-!
# `radvel/plot/mcmc_plots.py` 42-58: the trend plot's view of the table of samples
-/

namespace Radvel

/-- `flatchain.reshape((nwalkers, nensembles, -1))`, /repo/radvel/plot/mcmc_plots.py 48-49. numpy raises `ValueError` if the number of rows is not a multiple of `nwalkers * nensembles`. -/
def trendReshape {α : Type} (nw ne : Nat) (col : List α) : Except PyErr (List (List (List α))) :=
  if nw * ne = 0 then .error .valueError
  else if col.length % (nw * ne) ≠ 0 then .error .valueError
  else
    let n := col.length / (nw * ne)
    .ok ((List.range nw).map fun w => (List.range ne).map fun e => (col.drop ((w * ne + e) * n)).take n)

end Radvel
