import Verif.Model.Scales
import Verif.Model.Params

/-! What radvel tells ultranest about the free parameters. -/

namespace Radvel

/-- `[pn.startswith(("tc", "tp")) for pn in param_names]`, /repo/radvel/nested_sampling.py 155. -/
def wrappedParams (names : List (List Char)) : List Bool := names.map fun pn => startsWith "tc" pn || startsWith "tp" pn

/-- The number of steps of the slice sampler, if one is used: /repo/radvel/nested_sampling.py 165-170. The sampler itself is part of the package. -/
def sliceSteps (names : List (List Char)) : Option Nat := if names.length > 7 then some (names.length * 2) else none

end Radvel
