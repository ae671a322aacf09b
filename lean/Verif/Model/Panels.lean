import Verif.Model.Markers
import Mathlib.Algebra.Group.Defs

/-!
# `radvel/plot/orbit_plots.py`: panels of the figures, and the GP figure

Sizes, axes limits, ticks and texts are left out. A figure is the list of its panels.
-/

namespace Radvel

/-- A panel with its letter (`ord` of the character; `none`: no letter), and the cell of a phase panel. Models /repo/radvel/plot/orbit_plots.py 432-521. -/
inductive Panel
  | rv (letter : Option Nat)
  | like (i : Nat) (letter : Nat)
  | resid (letter : Option Nat)
  | phase (planet : Nat) (letter : Nat) (row col : Nat)
  deriving DecidableEq

/-- `phase_nrows`, `phase_ncols`, /repo/radvel/plot/orbit_plots.py 76-83: number of planets divided by the number of columns, rounded up. Simplification: `phase_ncols` is not zero. -/
def phaseGrid (nrows ncols : Option Nat) (planets : Nat) : Nat × Nat :=
  let c := ncols.getD 1
  (nrows.getD ((planets + c - 1) / c), c)

/-- One turn of the loop over planets, /repo/radvel/plot/orbit_plots.py 500-508 and 809-817: `gs_phase[i_row, i_col]` raises outside the grid `rows × cols`; `pltletter` may be unassigned. -/
def phaseStep (rows cols ncols : Nat) (acc : List Panel × Option Nat) (i : Nat) : Except PyErr (List Panel × Option Nat) :=
  let r := i / ncols
  let c := i - r * ncols
  if r < rows ∧ c < cols then
    match acc.2 with
    | none => .error .unboundLocalError
    | some l => .ok (acc.1 ++ [.phase (i + 1) l r c], some (l + 1))
  else .error .indexError

/-- `MultipanelPlot.plot_multipanel(nophase, letter_labels)`, /repo/radvel/plot/orbit_plots.py 449-521: the panels drawn. `ord('a')` is 97. -/
def multipanel (nrows ncols : Option Nat) (planets : Nat) (nophase letterLabels : Bool) : Except PyErr (List Panel) :=
  let g := phaseGrid nrows ncols planets
  let letter : Option Nat := if letterLabels then some 97 else none
  let base := [Panel.rv letter, .resid (letter.map (· + 1))]
  if nophase then .ok base
  else
    match (List.range planets).foldlM (phaseStep (max 1 g.1) (max 1 g.2) g.2) (base, letter.map (· + 2)) with
    | .error e => .error e
    | .ok r => .ok r.1

/-- `GPMultipanelPlot.plot_multipanel(nophase)`, /repo/radvel/plot/orbit_plots.py 714-823: the panels drawn and whether the figure is returned. `gridspec.GridSpec` raises `ValueError` without rows. -/
def gpMultipanel (nrows ncols : Option Nat) (planets likes : Nat) (separately nophase : Bool) : Except PyErr (List Panel × Bool) :=
  if !separately then
    match multipanel nrows ncols planets false true with
    | .error e => .error e
    | .ok l => .ok (l, false)
  else
    let g := phaseGrid nrows ncols planets
    let base := (List.range likes).map (fun i => Panel.like i (97 + i)) ++ [.resid (some (97 + likes))]
    if nophase then .ok (base, true)
    else if g.1 = 0 ∨ g.2 = 0 then .error .valueError
    else
      match (List.range planets).foldlM (phaseStep g.1 g.2 g.2) (base, some (97 + likes + 1)) with
      | .error e => .error e
      | .ok r => .ok (r.1, true)

/-- A `MultipanelPlot` object for `plot_multipanel`: `ax_list`, /repo/radvel/plot/orbit_plots.py 178, 468, 479, 504 and 521. -/
def multipanelCall (axList : List Panel) (nrows ncols : Option Nat) (planets : Nat) (nophase letterLabels : Bool) : Except PyErr (List Panel) :=
  match multipanel nrows ncols planets nophase letterLabels with
  | .error e => .error e
  | .ok l => .ok (axList ++ l)

/-! ## The GP figure

Velocities are of any type with an addition. Bands are the calls of `fill_between`, of which the colour is kept; the curve of the model is left out. -/

section
variable {α : Type} [Add α] [Zero α]

/-- A likelihood of the posterior: its suffix and, if it is a `GPLikelihood`, `like.predict(like.x)[0]`, /repo/radvel/plot/orbit_plots.py 595 and 619. -/
structure GPMember (α : Type) where
  suffix : String
  mean : Option (List α)

/-- The colour of the band and `ci` afterwards, /repo/radvel/plot/orbit_plots.py 623-629. -/
def bandColor (telfmts : Dict String Fmt) (suffix : String) (ci : Nat) : Except PyErr (String × Nat) :=
  match telfmts.get? suffix with
  | some f =>
    match f.get? "color" with
    | none => .error .keyError
    | some c => .ok (c, ci)
  | none =>
    match telfmtsDefault.get? suffix with
    | some f =>
      match f.get? "color" with
      | none => .error .keyError
      | some c => .ok (c, ci)
    | none =>
      match defaultColors[ci]? with
      | none => .error .indexError
      | some c => .ok (c, ci + 1)

/-- `orbit_model4data[indx] += gp_mean4data`, /repo/radvel/plot/orbit_plots.py 620-621: in order, at the entries of one telescope. Simplification: the mean has as many entries. -/
def addAt (suffix : String) : List String → List α → List α → List α
  | t :: ts, x :: xs, ms =>
    if t = suffix then
      match ms with
      | m :: ms => (x + m) :: addAt suffix ts xs ms
      | [] => x :: addAt suffix ts xs []
    else x :: addAt suffix ts xs ms
  | _, xs, _ => xs

/-- `plot_gp_like`, /repo/radvel/plot/orbit_plots.py 595-653: the colour of the band (for a GP), the array `orbit_model4data` and `ci` afterwards. -/
def plotGpLike (telfmts : Dict String Fmt) (subtractGp : Bool) (telvec : List String) (model : List α) (ci : Nat) (m : GPMember α) : Except PyErr (Option String × List α × Nat) :=
  match m.mean with
  | none => .ok (none, model, ci)
  | some mean =>
    match bandColor telfmts m.suffix ci with
    | .error e => .error e
    | .ok (c, ci') => .ok (some c, if subtractGp then model else addAt m.suffix telvec model mean, ci')

/-- The options and arrays of a `GPMultipanelPlot` that its panels do not change, /repo/radvel/plot/orbit_plots.py 121, 560-562 and 620. -/
structure GPFig (α : Type) where
  subtractGp : Bool
  subtractOrbit : Bool
  telvec : List String
  rawresid : List α

/-- What the panels change: `self.telfmts` and `self.rvmod`. Models /repo/radvel/plot/orbit_plots.py 595-653. -/
structure GPVars (α : Type) where
  telfmts : Dict String Fmt
  rvmod : List α

/-- A time series panel: the bands in order, and the data. Models /repo/radvel/plot/orbit_plots.py 655-678, 744-765. -/
structure GPPanel (α : Type) where
  bands : List (String × Option String)
  drawn : List (Drawn α)

/-- `orbit_model4data` at first, /repo/radvel/plot/orbit_plots.py 664-667 and 753-756. -/
def GPFig.model4data (g : GPFig α) (v : GPVars α) : List α := if g.subtractOrbit then v.rvmod.map (fun _ => 0) else v.rvmod

/-- The call of `mtelplot` with `self.rawresid+orbit_model4data`, /repo/radvel/plot/orbit_plots.py 674-678 and 761-765; unless the orbit is subtracted, `orbit_model4data` is the array `self.rvmod` itself. -/
def GPFig.draw (g : GPFig α) (v : GPVars α) (bands : List (String × Option String)) (model : List α) : Except PyErr (GPPanel α × GPVars α) :=
  match mtelplot (g.telvec.zip (List.zipWith (· + ·) g.rawresid model)) v.telfmts none with
  | .error e => .error e
  | .ok m => .ok (⟨bands, m.drawn⟩, ⟨m.telfmts, if g.subtractOrbit then v.rvmod else model⟩)

/-- One turn of the loop in `plot_timeseries`, /repo/radvel/plot/orbit_plots.py 670-671. -/
def gpBandStep (g : GPFig α) (telfmts : Dict String Fmt) (acc : List (String × Option String) × List α × Nat) (m : GPMember α) : Except PyErr (List (String × Option String) × List α × Nat) :=
  match plotGpLike telfmts g.subtractGp g.telvec acc.2.1 acc.2.2 m with
  | .error e => .error e
  | .ok (c, model, ci) => .ok (acc.1 ++ [(m.suffix, c)], model, ci)

/-- `GPMultipanelPlot.plot_timeseries`, /repo/radvel/plot/orbit_plots.py 655-678. -/
def gpTimeseries (g : GPFig α) (ms : List (GPMember α)) (v : GPVars α) : Except PyErr (GPPanel α × GPVars α) :=
  match ms.foldlM (gpBandStep g v.telfmts) ([], g.model4data v, 0) with
  | .error e => .error e
  | .ok (bands, model, _) => g.draw v bands model

/-- One turn of the loop of `plot_multipanel` with `plot_likelihoods_separately`, /repo/radvel/plot/orbit_plots.py 744-765: `ci` is always 0. -/
def gpSepStep (g : GPFig α) (acc : List (GPPanel α) × GPVars α) (m : GPMember α) : Except PyErr (List (GPPanel α) × GPVars α) :=
  match plotGpLike acc.2.telfmts g.subtractGp g.telvec (g.model4data acc.2) 0 m with
  | .error e => .error e
  | .ok (c, model, _) =>
    match g.draw acc.2 [(m.suffix, c)] model with
    | .error e => .error e
    | .ok (p, v) => .ok (acc.1 ++ [p], v)

/-- The panels of the likelihoods, /repo/radvel/plot/orbit_plots.py 742-785. -/
def gpSeparate (g : GPFig α) (ms : List (GPMember α)) (v : GPVars α) : Except PyErr (List (GPPanel α) × GPVars α) := ms.foldlM (gpSepStep g) ([], v)

end
end Radvel
