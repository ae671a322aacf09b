import Verif.Model.RVLike
import Verif.Model.Phase
import Verif.Model.FastBin
import Verif.Model.Numbers

/-!
# `radvel/plot/orbit_plots.py` 65-430: what `MultipanelPlot` draws

Exact reals; `none` is nan. Modelled: the arrays computed in `__init__`, the points, curves and axis limits of the three kinds of panels, the binned points and the
highlighted point. Not modelled: fonts, sizes, axis ticks, the upper axis in years, the text annotations and the legend (the vertical axes and the RMS of the legend are in `Verif.Model.PlotScale`); who is drawn with
which marker is in `Verif.Model.Markers`, the layout in `Verif.Model.Panels`.
-/

namespace Radvel
open Real

/-- `max(x)` of the builtin, /repo/radvel/plot/orbit_plots.py 137, 139, 148. -/
noncomputable def maxReal : List ℝ → Except PyErr ℝ
  | [] => .error .valueError
  | a :: l => .ok (l.foldl max a)

/-- `min(x)` of the builtin, /repo/radvel/plot/orbit_plots.py 139, 148. -/
noncomputable def minReal : List ℝ → Except PyErr ℝ
  | [] => .error .valueError
  | a :: l => .ok (l.foldl min a)

/-- `np.linspace(a, b, n)` for `n ≥ 2`, /repo/radvel/plot/orbit_plots.py 143, 149. -/
noncomputable def linspace (a b : ℝ) (n : Nat) : List ℝ := (List.range n).map (fun (i : Nat) => a + (i : ℝ) * ((b - a) / ((n : ℝ) - 1)))

/-- `self.suffix`, /repo/radvel/likelihood.py 335-338: one leading underscore is dropped. It labels every observation in `telvec` (340). -/
def telOf (suffix : String) : List Char :=
  match suffix.toList with
  | '_' :: t => t
  | t => t

/-- `params['dvdt'].value*(t-time_base) + params['curv'].value*(t-time_base)**2`, /repo/radvel/plot/orbit_plots.py 168-175. -/
noncomputable def slopeOf (p : Params ℝ) (tb : ℝ) (ts : List ℝ) : Except PyErr (List ℝ) := do
  let d ← p.items.get .dvdt
  let c ← p.items.get .curv
  return ts.map (fun t => d.value * (t - tb) + c.value * (t - tb) ^ 2)

/-- The arguments of `MultipanelPlot.__init__` that matter here, /repo/radvel/plot/orbit_plots.py 65-69. `saveplot`: a file name was given; `phaseLimits = none`: the empty list. -/
structure PlotArgs where
  saveplot : Bool := false
  epoch : ℝ := 2450000
  setXlim : Option (ℝ × ℝ) := none
  nobin : Bool := false
  phaseLimits : Option (ℝ × ℝ) := none

/-- Attributes of a `MultipanelPlot`. `st` is the vector of the copied posterior, `params` its attribute `params` (in the synth basis). Models /repo/radvel/plot/orbit_plots.py 65-178. -/
structure OrbitFig where
  st : VState ℝ
  params : Params ℝ
  rvtimes : List ℝ
  rverr : List ℝ
  telvec : List (List Char)
  rawresid : List (Option ℝ)
  dt : ℝ
  rvmodt : List ℝ
  orbitModel : List (Option ℝ)
  rvmod : List (Option ℝ)
  epoch : ℝ
  plttimes : List ℝ
  mplttimes : List ℝ
  slope : List ℝ
  slopeLow : List ℝ
  args : PlotArgs

/-- The period read for planet `i + 1`, /repo/radvel/plot/orbit_plots.py 135. -/
noncomputable def periodOf (p : Params ℝ) (i : Nat) : Except PyErr ℝ := do
  let q ← p.items.get (.orb .per (i + 1))
  return q.value

/-- `longp`, /repo/radvel/plot/orbit_plots.py 133-139. -/
noncomputable def longPeriod (p : Params ℝ) (N : Nat) (times : List ℝ) : Except PyErr ℝ := do
  let periods ← (List.range N).mapM (periodOf p)
  if periods ≠ [] then maxReal periods
  else
    let b ← maxReal times
    let a ← minReal times
    return b - a

/-- `dt` and the ends of the time grid `rvmodt`, /repo/radvel/plot/orbit_plots.py 141-152. -/
noncomputable def gridOf (a : PlotArgs) (times : List ℝ) (longp : ℝ) : Except PyErr (ℝ × ℝ × ℝ) :=
  match a.setXlim with
  | some (x0, x1) => .ok (x1 - x0, x0 + a.epoch - 0.05 * (x1 - x0), x1 + a.epoch + 0.05 * (x1 - x0) + longp)
  | none => do
    let b ← maxReal times
    let a ← minReal times
    return (b - a, a - 0.05 * (b - a), b + 0.05 * (b - a) + longp)

open Classical in
/-- The epoch after 157-166 of /repo/radvel/plot/orbit_plots.py, and the number subtracted from the times for the horizontal axis. -/
noncomputable def epochOf (epoch : ℝ) (times : List ℝ) : ℝ × ℝ :=
  if ∃ t ∈ times, t - epoch < -2.4e6 then (epoch, 0)
  else if epoch = 0 then (2450000, 2450000)
  else (epoch, epoch)

/-- `MultipanelPlot.__init__`, /repo/radvel/plot/orbit_plots.py 71 and 102-175, for a posterior whose likelihoods are `Ls` (one member of the list for a single likelihood).
`post.vector.params` is still the dictionary in the original basis, so `dict_to_vector` (114) copies that one. -/
noncomputable def orbitInit (dflt : ℝ) (drive : Drive) (tb : ℝ) (s : VState ℝ) (Ls : List RVLike) (a : PlotArgs) : Except PyErr OrbitFig := do
  let synth ← toSynth dflt s.params.basis true s.params
  let s1 ← s.dictToVector
  let times := Ls.flatMap (fun L => L.obs.map Obs.t)
  let rverr ← compositeErrorbars Ls s1
  let (s2, rawresid) ← compositeResiduals (fun s t => modelCall drive tb s none t) Ls s1
  let _ ← slopeOf synth tb times
  let longp ← longPeriod synth s2.params.numPlanets times
  let (dt, lo, hi) ← gridOf a times longp
  let rvmodt := linspace lo hi (if a.saveplot then 10000 else 2000)
  let orbitModel ← rvmodt.mapM (modelCall drive tb s2 none)
  let rvmod ← times.mapM (modelCall drive tb s2 none)
  let (epoch, sub) := epochOf a.epoch times
  let slope ← slopeOf synth tb rvmodt
  let slopeLow ← slopeOf synth tb times
  return { st := s2, params := synth, rvtimes := times, rverr := rverr, telvec := Ls.flatMap (fun L => L.obs.map (fun _ => telOf L.suffix)),
           rawresid := rawresid, dt := dt, rvmodt := rvmodt, orbitModel := orbitModel, rvmod := rvmod, epoch := epoch,
           plttimes := times.map (· - sub), mplttimes := rvmodt.map (· - sub), slope := slope, slopeLow := slopeLow, args := a }

/-! ### the panel over time -/

/-- `vels`, /repo/radvel/plot/orbit_plots.py 202. -/
noncomputable def OrbitFig.vels (f : OrbitFig) : List (Option ℝ) := List.zipWith addNan f.rawresid f.rvmod

/-- The horizontal axis of the panels over time, /repo/radvel/plot/orbit_plots.py 209-212 and 259-262. -/
noncomputable def OrbitFig.xlim (f : OrbitFig) : Except PyErr (ℝ × ℝ) :=
  match f.args.setXlim with
  | some x => .ok x
  | none => do
    let a ← minReal f.plttimes
    let b ← maxReal f.plttimes
    return (a - 0.01 * f.dt, b + 0.01 * f.dt)

/-- The number `n` of the label `JD - n` under the residuals, /repo/radvel/plot/orbit_plots.py 265. -/
noncomputable def OrbitFig.label (f : OrbitFig) : ℤ := roundEven f.epoch

/-! ### phase panels -/

/-- A point with an error bar and its instrument, an argument row of `mtelplot`. Models /repo/radvel/plot/orbit_plots.py 296-307. -/
structure FoldPoint where
  phase : Option ℝ
  vel : Option ℝ
  err : ℝ
  tel : List Char

/-- What a phase panel contains. The curve is drawn through its points in the order of their phases (304); here they are listed in the order of `modph`. Models /repo/radvel/plot/orbit_plots.py 286-326. -/
structure FoldPanel where
  curve : List (Option ℝ × Option ℝ)
  data : List FoldPoint
  bins : List BinXY
  highlight : Option (Option ℝ × Option ℝ)
  xlim : ℝ × ℝ

/-- `zip` of the phases with the doubled arrays, /repo/radvel/plot/orbit_plots.py 296-298 and 307. -/
noncomputable def foldPoints (phase : List (Option ℝ)) (vel : List (Option ℝ)) (err : List ℝ) (tel : List (List Char)) : List FoldPoint :=
  List.zipWith (fun (p : Option ℝ) (r : Option ℝ × ℝ × List Char) => ⟨p, r.1, r.2.1, r.2.2⟩) phase ((vel ++ vel).zip ((err ++ err).zip (tel ++ tel)))

open Classical in
/-- `np.argmax(x)`: the first position of the largest entry, /repo/radvel/plot/orbit_plots.py 310. -/
noncomputable def argmax (x : List ℝ) : Option Nat := x.findIdx? (fun t => decide (∀ u ∈ x, u ≤ t))

/-- A point as passed to `fastbin(phase+1, ...)`, /repo/radvel/plot/orbit_plots.py 301. -/
noncomputable def FoldPoint.shifted (p : FoldPoint) : Option XY :=
  match p.phase, p.vel with
  | some x, some y => some ⟨x + 1, y⟩
  | _, _ => none

/-- The binned points, /repo/radvel/plot/orbit_plots.py 286-287, 300-301 and 317-321. Simplification: `fastbin` is modelled for numbers only, so points with a nan are left out. -/
noncomputable def foldBins (nobin : Bool) (n : Nat) (data : List FoldPoint) : List BinXY :=
  if nobin || decide (n < 20) || decide (n ≤ 10) then []
  else (fastbin (data.filterMap FoldPoint.shifted) 25).map (fun b => { b with t := b.t - 1 })

open Classical in
/-- The phase at which the last measurement is highlighted, /repo/radvel/plot/orbit_plots.py 311-313. -/
noncomputable def highlightPhase (h : Option ℝ) : Option ℝ := h.map (fun x => if x > 0.5 then x - 1 else x)

/-- The highlighted point, /repo/radvel/plot/orbit_plots.py 309-314. -/
noncomputable def foldHighlight (f : OrbitFig) (n : Nat) (rvdat : List (Option ℝ)) : Except PyErr (Option ℝ × Option ℝ) :=
  match argmax f.rvtimes with
  | none => .error .valueError
  | some i =>
    match f.rvtimes[i]?, rvdat[i]? with
    | some t, some v =>
      match tToPhase f.params [t] n false with
      | .ok [h] => .ok (highlightPhase h, v)
      | .ok _ => .error .valueError
      | .error e => .error e
    | _, _ => .error .indexError

/-- `plot_phasefold(pltletter, pnum)`, /repo/radvel/plot/orbit_plots.py 286-326, for planet number `n ≥ 1`. -/
noncomputable def phasefold (drive : Drive) (tb : ℝ) (f : OrbitFig) (highlightLast : Bool) (n : Nat) : Except PyErr FoldPanel := do
  let m1 ← f.rvmodt.mapM (modelCall drive tb f.st (some (n - 1)))
  let rvmod2 := List.zipWith (fun v (x : ℝ) => addNan v (some (-x))) m1 f.slope
  let modph ← tToPhase f.params f.rvmodt n true
  let m2 ← f.rvtimes.mapM (modelCall drive tb f.st (some (n - 1)))
  let rvdat := List.zipWith (fun v (x : ℝ) => addNan v (some (-x))) (List.zipWith addNan f.rawresid m2) f.slopeLow
  let phase ← tToPhase f.params f.rvtimes n true
  let data := foldPoints (phase.map (fun x => x.map (· - 1))) rvdat f.rverr f.telvec
  let hl ← (if highlightLast then (foldHighlight f n rvdat).map some else .ok none)
  return { curve := (modph.map (fun x => x.map (· - 1))).zip (rvmod2 ++ rvmod2), data := data,
           bins := foldBins f.args.nobin f.rvtimes.length data, highlight := hl,
           xlim := f.args.phaseLimits.getD (-0.5, 0.5) }

end Radvel
