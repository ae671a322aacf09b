import Verif.Model.Scales
import Verif.Model.Mcmc

/-!
# `radvel/mcmc.py` 284-331: how many walkers start, and where
-/

namespace Radvel

/-- `p0` of one ensemble, /repo/radvel/mcmc.py 285-290, 329-331; `rand i j` is the random number for parameter `j` of walker `i`. -/
noncomputable def startPositions (rand : Nat → Nat → ℝ) (ps : List FreePar) (nwalkers : Nat) : List (List Fl) :=
  (List.range (adjustWalkers nwalkers ps.length)).map (walkerStart rand ps)

end Radvel
