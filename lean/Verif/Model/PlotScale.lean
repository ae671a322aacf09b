import Verif.Model.OrbitPlot

/-!
# `radvel/plot/orbit_plots.py` 189-196, 233-235, 251-253 and 328-330: the vertical axes and the RMS in the legend

Exact reals; `none` is nan. Not modelled: what matplotlib does with a pair of equal limits (it widens them a little), and the rounding of the number in the legend to two digits.
-/

namespace Radvel
open Real

/-- `np.std(x)`: the root of the mean squared deviation from the mean; nan of nothing, and when there is a nan. Used in /repo/radvel/plot/orbit_plots.py 193, 234, 252 and 329. -/
noncomputable def npStd (x : List (Option ℝ)) : Option ℝ :=
  match x.mapM id with
  | none => none
  | some [] => none
  | some l => some (√((l.map (fun y => (y - l.sum / l.length) ^ 2)).sum / l.length))

/-- `if not self.yscale_auto: ax.set_ylim(-self.yscale_sigma*scale, self.yscale_sigma*scale)`, /repo/radvel/plot/orbit_plots.py 233-235, 251-253 and 328-330, for the data `x` of the panel.
`none`: the limits are left to matplotlib. A limit that is nan is a `ValueError` of matplotlib. -/
noncomputable def setYlim (auto : Bool) (σ : ℝ) (x : List (Option ℝ)) : Except PyErr (Option (ℝ × ℝ)) :=
  if auto then .ok none
  else
    match npStd x with
    | none => .error .valueError
    | some scale => .ok (some (-σ * scale, σ * scale))

/-- The vertical axis of the velocities, /repo/radvel/plot/orbit_plots.py 233-235. -/
noncomputable def OrbitFig.velYlim (f : OrbitFig) (auto : Bool) (σ : ℝ) : Except PyErr (Option (ℝ × ℝ)) := setYlim auto σ (List.zipWith addNan f.rawresid f.rvmod)

/-- The vertical axis of the residuals, /repo/radvel/plot/orbit_plots.py 251-253. -/
noncomputable def OrbitFig.residYlim (f : OrbitFig) (auto : Bool) (σ : ℝ) : Except PyErr (Option (ℝ × ℝ)) := setYlim auto σ f.rawresid

/-- The vertical axis of a phase panel, /repo/radvel/plot/orbit_plots.py 328-330: `rvdatcat` are the velocities passed to `mtelplot` (316). -/
noncomputable def FoldPanel.ylim (p : FoldPanel) (auto : Bool) (σ : ℝ) : Except PyErr (Option (ℝ × ℝ)) := setYlim auto σ (p.data.map FoldPoint.vel)

/-- `rms_values`, /repo/radvel/plot/orbit_plots.py 190-194, by instrument; `like.residuals()` writes the offset of the instrument (see `RVLike.residuals`). -/
noncomputable def rmsValues (mod : Curve) : List RVLike → VState ℝ → Dict (List Char) (Option ℝ) → Except PyErr (VState ℝ × Dict (List Char) (Option ℝ))
  | [], s, d => .ok (s, d)
  | L :: t, s, d =>
    match L.residuals mod s with
    | .error e => .error e
    | .ok (s', r) => rmsValues mod t s' (d.set (telOf L.suffix) (npStd r))

open Classical in
/-- The number after `RMS=` in the legend of instrument `inst`, /repo/radvel/plot/orbit_plots.py 189-196 and plot/__init__.py 82-83 and 129-132: `if rms:` is false for zero (and true for nan, here `some none`).
`none`: no RMS is shown. -/
noncomputable def OrbitFig.legendRms (drive : Drive) (tb : ℝ) (Ls : List RVLike) (f : OrbitFig) (showRms : Bool) (inst : List Char) : Except PyErr (Option (Option ℝ)) :=
  if showRms then
    match rmsValues (fun s t => modelCall drive tb s none t) Ls f.st [] with
    | .error e => .error e
    | .ok (_, d) =>
      match d.get? inst with
      | none => .error .keyError
      | some r => .ok (if r = some 0 then none else some r)
  else .ok none

end Radvel
