import Verif.Model.OrbitPlot

/-! The upper axis of the RV figure. -/

namespace Radvel

/-- The limits of the axis in years, /repo/radvel/plot/orbit_plots.py 224-229 (the same for figures with Gaussian processes, 690-696). `decimalyear` is `Time(x, format='jd', scale='utc').decimalyear` of astropy. -/
noncomputable def OrbitFig.years (f : OrbitFig) (decimalyear : ℝ → ℝ) : Except PyErr (ℝ × ℝ) := do
  let (x0, x1) ← f.xlim
  return (decimalyear (x0 + f.epoch), decimalyear (x1 + f.epoch))

/-- `axyrs.plot(decimalyear, decimalyear)` in the figure with Gaussian processes, /repo/radvel/plot/orbit_plots.py 693: the ends of a line, drawn against the years and against the vertical axis of the velocities, which `twiny` shares. -/
noncomputable def OrbitFig.gpYearLine (f : OrbitFig) (decimalyear : ℝ → ℝ) : Except PyErr (List (ℝ × ℝ)) := do
  let (y0, y1) ← f.years decimalyear
  return [(y0, y0), (y1, y1)]

end Radvel
