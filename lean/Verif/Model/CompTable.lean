import Verif.Py.FloatOps

/-!
# `radvel/report.py` 448-524: the table of model comparisons

A model is an arbitrary record `β` with its AICc. The formatting of the cells and of the table head is left out.
-/

namespace Radvel

/-- The texts put before a row: "AICc Favored Model" (/repo/radvel/report.py 510) and `deltaAICmessages` (482-483). -/
inductive Verdict
  | favored
  | nearly
  | somewhat
  | strongly
  | ruledOut
deriving DecidableEq, Repr

/-- `deltaAIClevels`, /repo/radvel/report.py 481. -/
def aicLevels : List ℝ := [0, 2, 4, 10]

/-- `deltaAICmessages`, /repo/radvel/report.py 482-483. -/
def aicMessages : List Verdict := [.nearly, .somewhat, .strongly, .ruledOut]

/-- One entry of `rows`, /repo/radvel/report.py 488-520, together with the `\hline` that may precede it. -/
structure TableRow (β : Type) where
  hline : Bool
  label : Option Verdict
  model : β
  aicc : Fl
  delta : Fl

open Classical in
/-- The test `(deltaAICtrigger < maxtrigger) and (delta > deltaAIClevels[deltaAICtrigger])`, /repo/radvel/report.py 512 and 514. -/
noncomputable def exceeds (delta : Fl) (trigger : Nat) : Bool :=
  match aicLevels[trigger]? with
  | none => false
  | some level => decide ((Fl.fin level).lt delta)

/-- The `while` loop, /repo/radvel/report.py 514-515. -/
noncomputable def advance (delta : Fl) (trigger : Nat) : Nat :=
  if h : exceeds delta trigger = true then advance delta (trigger + 1) else trigger
termination_by aicLevels.length - trigger
decreasing_by
  have : trigger < aicLevels.length := by
    by_contra hn
    unfold exceeds at h
    rw [List.getElem?_eq_none (by omega)] at h
    cases h
  omega

/-- The body of the loop over the models, /repo/radvel/report.py 488-520: the new value of `deltaAICtrigger` and the row. Both the favoured label and a message could only be present in the first row; then the
message comes first. -/
noncomputable def tableRow {β : Type} (minAIC : Fl) (i trigger : Nat) (m : β × Fl) : Nat × TableRow β :=
  let delta := m.2.sub minAIC
  let label := if i = 0 then some Verdict.favored else none
  if exceeds delta trigger then
    let t := advance delta (trigger + 1)
    (t, { hline := true, label := aicMessages[t - 1]?, model := m.1, aicc := m.2, delta := delta })
  else (trigger, { hline := decide (i = 1), label := label, model := m.1, aicc := m.2, delta := delta })

/-- The loop over the models, /repo/radvel/report.py 484-520. -/
noncomputable def tableLoop {β : Type} (minAIC : Fl) : Nat → Nat → List (β × Fl) → List (TableRow β)
  | _, _, [] => []
  | i, trigger, m :: t => (tableRow minAIC i trigger m).2 :: tableLoop minAIC (i + 1) (tableRow minAIC i trigger m).1 t

open Classical in
/-- `sorted(statsdict, key=itemgetter('AICc'))`, /repo/radvel/report.py 456: a stable sort that only uses `<` on the values (the entries are pairs whose second components are equal). Simplification: for
lists of three or more models with a nan among them the order may differ from that of the interpreter's algorithm. -/
noncomputable def sortStats {β : Type} (stats : List (β × Fl)) : List (β × Fl) := stats.mergeSort fun a b => decide (¬ b.2.lt a.2)

/-- `tab_comparison`, /repo/radvel/report.py 448-524; `none` is the empty text. -/
noncomputable def tabComparison {β : Type} (stats : Option (List (β × Fl))) : Option (List (TableRow β)) :=
  match stats with
  | none => none
  | some l =>
    match sortStats l with
    | [] => none
    | m :: t => some (tableLoop m.2 0 0 ((m :: t).take 50))

end Radvel
