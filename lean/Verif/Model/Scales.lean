import Verif.Model.Params
import Verif.Py.FloatOps
import Mathlib.Analysis.SpecialFunctions.Log.Base

/-!
# `radvel/mcmc.py` 298-337: where the walkers start
-/

namespace Radvel
open Classical

/-- `name.startswith(p)`. Used for /repo/radvel/mcmc.py 305-315. -/
def startsWith (p : String) (name : List Char) : Bool := p.toList.isPrefixOf name

/-- `np.abs(val * 1e-5*np.log10(val))`, /repo/radvel/mcmc.py 306: `np.log10` of a negative number is nan, of zero `-inf`, and `0 * -inf` is nan. -/
noncomputable def perScale (val : ℝ) : Fl := if 0 < val then .fin |val * 1e-5 * Real.logb 10 val| else .nan

/-- The size of the initial perturbation when none is given, /repo/radvel/mcmc.py 305-319. Values are finite numbers. -/
noncomputable def defaultScale (name : List Char) (val : ℝ) : Fl :=
  if startsWith "per" name then perScale val
  else if startsWith "logper" name then .fin |1e-5 * val|
  else if startsWith "tc" name ∨ startsWith "tp" name then .fin 0.1
  else if startsWith "gamma" name then .fin 1
  else if startsWith "jit" name then .fin (max |0.10 * val| 0.1)
  else if val = 0 then .fin 0.00001
  else .fin |0.10 * val|

/-- One free parameter: its name, its value and its scale (row `par` of the vector: columns 0 and 2). Models /repo/radvel/mcmc.py 300-304. -/
structure FreePar where
  name : List Char
  val : ℝ
  scale : Fl

/-- One pass through the loop, /repo/radvel/mcmc.py 302-322: `post.vector.vector[par][2] == 0` selects the default (`nan == 0` is false), which is also stored in the vector. -/
noncomputable def scaleOf (p : FreePar) : Fl := if p.scale = .fin 0 then defaultScale p.name p.val else p.scale

/-- The vector after the loop. Models /repo/radvel/mcmc.py 319. -/
noncomputable def setScale (p : FreePar) : FreePar := { p with scale := scaleOf p }

/-- `pscales`, /repo/radvel/mcmc.py 300-323. -/
noncomputable def pscales (ps : List FreePar) : List Fl := ps.map scaleOf

/-- Where walker number `i` starts, /repo/radvel/mcmc.py 329-331: `pi + rand * pscales`, with the random numbers `rand i j`. Infinite given scales
are left out (`0 * inf`). -/
noncomputable def walkerStart (rand : Nat → Nat → ℝ) (ps : List FreePar) (i : Nat) : List Fl :=
  ps.zipIdx.map fun (p, j) => Fl.add (.fin p.val) (Fl.scale (rand i j) (scaleOf p))

end Radvel
