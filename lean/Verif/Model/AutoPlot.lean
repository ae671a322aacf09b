import Verif.Model.Mcmc

/-!
# The table and the plot of autocorrelation times: `radvel/driver.py` 225-232, `radvel/mcmc.py` 484, `radvel/plot/mcmc_plots.py` 74-119

Writing the table as CSV and reading it again gives the same numbers. Labels, colours and the legend are left out.
-/

namespace Radvel
open Classical

/-- One row of the table of autocorrelation times: `autosamples`, `automin`, `automean`, `automax`, `factor`, /repo/radvel/driver.py 226-230. -/
structure AutoRow where
  samples : Nat
  lo : Fl
  mean : Fl
  hi : Fl
  factor : Fl

/-- The table made after a run with `minAfactor`, /repo/radvel/driver.py 225-230 and /repo/radvel/mcmc.py 484: a column of another length than the first raises `ValueError`. -/
def autoTable (minAfactor : Fl) (st : McState) : Except PyErr (List AutoRow) :=
  if st.automin.length ≠ st.autosamples.length ∨ st.automean.length ≠ st.autosamples.length ∨ st.automax.length ≠ st.autosamples.length then .error .valueError
  else .ok ((List.range st.autosamples.length).map fun i =>
    ⟨st.autosamples.getD i 0, st.automin.getD i .nan, st.automean.getD i .nan, st.automax.getD i .nan, minAfactor⟩)

/-- pandas' `Series.max()`: nan is left out; nan if nothing is left. Used for /repo/radvel/plot/mcmc_plots.py 103-108. -/
noncomputable def pdMax (l : List Fl) : Fl :=
  match l.filter (fun x => decide (x ≠ .nan)) with
  | [] => .nan
  | a :: t => t.foldl Fl.maxStep a

/-- pandas' `Series.min()`. Used for /repo/radvel/plot/mcmc_plots.py 103-108. -/
noncomputable def pdMin (l : List Fl) : Fl :=
  match l.filter (fun x => decide (x ≠ .nan)) with
  | [] => .nan
  | a :: t => t.foldl Fl.minStep a

/-- What `AutoPlot.plot` draws: three series of points, the dotted line, and the limits of the axes (`none`: matplotlib's choice). Models /repo/radvel/plot/mcmc_plots.py 97-108. -/
structure AutoFig where
  los : List (Nat × Fl)
  means : List (Nat × Fl)
  his : List (Nat × Fl)
  line : List (Nat × Fl)
  xlim : Option (Nat × Nat)
  ylim : ℝ × ℝ

/-- `pl.ylim(bottom, top)`: matplotlib raises `ValueError` for limits that are not finite. Used for /repo/radvel/plot/mcmc_plots.py 104-108. -/
def setLim : Fl → Fl → Except PyErr (ℝ × ℝ)
  | .fin a, .fin b => .ok (a, b)
  | _, _ => .error .valueError

/-- `AutoPlot.plot`, /repo/radvel/plot/mcmc_plots.py 92-109. `self.auto['factor'][0]` raises `KeyError` for a table without rows. -/
noncomputable def autoPlot (rows : List AutoRow) : Except PyErr AutoFig :=
  match rows with
  | [] => .error .keyError
  | r0 :: _ =>
    let ns := rows.map AutoRow.samples
    let line := rows.map fun r => (r.samples, Fl.div (.fin r.samples) r0.factor)
    let x0 := ns.foldl min r0.samples
    let x1 := ns.foldl max r0.samples
    let crit := pdMax (rows.map fun r => Fl.div (.fin r.samples) r.factor)
    let top := pdMax (rows.map AutoRow.hi)
    match setLim (pdMin (rows.map AutoRow.lo)) (if top.lt crit then crit else top) with
    | .error e => .error e
    | .ok ylim => .ok { los := rows.map fun r => (r.samples, r.lo), means := rows.map fun r => (r.samples, r.mean), his := rows.map fun r => (r.samples, r.hi)
                        line := line, xlim := if x0 ≠ x1 then some (x0, x1) else none, ylim := ylim }

end Radvel
