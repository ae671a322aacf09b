import Verif.Spec.OrbitPlot

/-! Specification vocabulary for the vertical axes of the RV figure (C175). -/

namespace Radvel
open Real

/-- Root mean square. -/
noncomputable def rmsReal (l : List ℝ) : ℝ := √((l.map (fun y => y ^ 2)).sum / l.length)

/-- Root mean square of the deviations from the mean. -/
noncomputable def scatterReal (l : List ℝ) : ℝ := rmsReal (l.map (fun y => y - meanReal l))

end Radvel
