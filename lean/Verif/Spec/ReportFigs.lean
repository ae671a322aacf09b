import Verif.Model.ReportFigs

/-!
Which figures have been made, read from a history of commands.
-/

namespace Radvel

/-- The types that a command has drawn: those before the first error. -/
def drawn (l : List (PlotType × Option PyErr)) : List PlotType := (l.takeWhile fun x => x.2.isNone).map Prod.fst

/-- The figures drawn by a history, oldest first; `n` runs of the sampler came before it. -/
def drawings (n : Nat) : List FigCmd → List Drawing
  | [] => []
  | .plots _ l :: h => (drawn l).map (fun t => ⟨t, n⟩) ++ drawings n h
  | .sample :: h => drawings (n + 1) h
  | .remove _ :: h => drawings n h

/-- The last figure of a type. -/
def lastOf (l : List Drawing) (t : PlotType) : Option Drawing := (l.filter fun d => d.type = t).getLast?

/-- The runs of the sampler in a history. -/
def samplings : List FigCmd → Nat
  | [] => 0
  | .sample :: h => samplings h + 1
  | _ :: h => samplings h

/-- The user does not name files and does not remove any. -/
def Standard (h : List FigCmd) : Prop := ∀ c ∈ h, (∃ l, c = .plots none l) ∨ c = .sample

/-- The types of figures that a report has, each with its template. -/
def reported : List (Text × PlotType) := [("rv_multipanel".toList, .rv), ("corner".toList, .corner), ("corner_derived_pars".toList, .derived)]

end Radvel
