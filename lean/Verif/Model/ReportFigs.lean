import Verif.Model.Pipeline
import Verif.Model.WorkDir

/-!
# Figures of the report: `plots`, /repo/radvel/driver.py 31-136, `report`, 687-757, and `texdoc` and `compile`, /repo/radvel/report.py 86-173

Only the files of figures are modelled, and which samples a figure was made from. Simplifications: what the commands read before they draw is part of the oracle (see Model/Pipeline); the paths in the section `plot` of the
status file are kept as places (`os.path.relpath` and the text of the status file are left out: `report` uses the basename only); every command has the same output directory `out` and setup file `base`.
-/

namespace Radvel

/-- A file: its directory and its name. Models /repo/radvel/driver.py 61-65, 743-757. -/
structure Place where
  dir : Path
  name : Text
deriving DecidableEq

/-- A figure: what it shows, and the run of the sampler that it was made from. Models /repo/radvel/driver.py 72-80, 106-133. -/
structure Drawing where
  type : PlotType
  samples : Nat
deriving DecidableEq

/-- The files with figures, the section `plot` of the status file and the number of the newest samples. Models /repo/radvel/driver.py 135-136, 748-757. -/
structure FigWorld where
  files : Dict Place Drawing
  saved : Dict PlotType Place
  samples : Nat

/-- The file of a figure, /repo/radvel/driver.py 60-65, 105, 110, 118, 128-130. -/
def figPlace (out : Path) (base : Text) (saveplot : Option Place) (t : PlotType) : Place :=
  match t, saveplot with
  | .rv, some p => p
  | t, _ => ⟨out, base ++ (plotSuffix t).toList⟩

/-- `args.plotkw.pop('saveplot')`, /repo/radvel/driver.py 66: the file named by the user serves one RV figure. -/
def popSaveplot (saveplot : Option Place) (t : PlotType) : Option Place := if t = .rv then none else saveplot

/-- The loop of `plots`, /repo/radvel/driver.py 54-136; with every type comes the error that drawing it raises, if any. -/
def figLoop (out : Path) (base : Text) : Option Place → List (PlotType × Option PyErr) → FigWorld → FigWorld × Except PyErr Unit
  | _, [], w => (w, .ok ())
  | _, (_, some e) :: _, w => (w, .error e)
  | kw, (t, none) :: l, w =>
    let p := figPlace out base kw t
    figLoop out base (popSaveplot kw t) l { w with files := Dict.set w.files p ⟨t, w.samples⟩, saved := Dict.set w.saved t p }

/-- Commands that change figures or samples: `plots` with `plotkw['saveplot']` and the types, a sampler, and removal of a file by the user. Models /repo/radvel/driver.py 31-136, 165-250, 687-757. -/
inductive FigCmd
  | plots (saveplot : Option Place) (types : List (PlotType × Option PyErr))
  | sample
  | remove (p : Place)

/-- One command. Models /repo/radvel/driver.py 31-136, 165-250, 687-757. -/
def figStep (out : Path) (base : Text) (w : FigWorld) : FigCmd → FigWorld
  | .plots kw l => (figLoop out base kw l w).1
  | .sample => { w with samples := w.samples + 1 }
  | .remove p => { w with files := Dict.erase w.files p }

/-- A history of commands. Models /repo/radvel/driver.py 31-136, 165-250, 687-757. -/
def figRun (out : Path) (base : Text) (h : List FigCmd) (w : FigWorld) : FigWorld := h.foldl (figStep out base) w

/-- A new output directory. Models /repo/radvel/cli.py 239-240. -/
def FigWorld.empty : FigWorld := ⟨[], [], 0⟩

/-- One file copied to the temporary directory, /repo/radvel/report.py 142-145, under its basename, /repo/radvel/driver.py 754. -/
def copyDep (out : Path) (files : Dict Place Drawing) (temp : Dict Text Drawing) (p : Place) : Except PyErr (Dict Text Drawing) :=
  match Dict.get? files ⟨out, p.name⟩ with
  | some d => .ok (Dict.set temp p.name d)
  | none => .error .fileNotFoundError

/-- `figtypes`, /repo/radvel/report.py 101. -/
def figtypes : List Text := ["rv_multipanel".toList, "corner".toList, "corner_derived_pars".toList]

/-- The name of a figure's file, /repo/radvel/report.py 103. -/
def figInfile (base f : Text) : Text := base ++ "_".toList ++ f ++ ".pdf".toList

/-- The figures included by `texdoc`, /repo/radvel/report.py 101-108: those whose file is in the current directory, which is the temporary one. -/
def texFigures (base : Text) (temp : Dict Text Drawing) : List (Text × Drawing) :=
  figtypes.filterMap fun f => (Dict.get? temp (figInfile base f)).map fun d => (f, d)

/-- The figures of the report, each under the template (and so the caption) of its figure type, /repo/radvel/driver.py 748-757: `status.items('plot')` raises if there is no such section. -/
def reportFigures (out : Path) (base : Text) (w : FigWorld) : Except PyErr (List (Text × Drawing)) :=
  if w.saved = [] then .error .noSectionError
  else do
    let temp ← (w.saved.map Prod.snd).foldlM (copyDep out w.files) []
    return texFigures base temp

end Radvel
