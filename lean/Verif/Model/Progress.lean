import Verif.Model.Mcmc
import Verif.Model.Crit

/-!
# The progress display of a run: `radvel/mcmc.py` 54-63, 80-90

Quotients are exact here; the binary rounding of `step/float(totsteps)`, which can decide ties, is not modelled. The second message (speed, acceptance rate, criteria), curses and notebooks are left
out.
-/

namespace Radvel

/-- `_progress_bar(step, totsteps, width=50)`, /repo/radvel/mcmc.py 54-63: `range` of a negative number is empty. -/
def progressBar (step totsteps : Nat) (width : Nat := 50) : Except PyErr Text :=
  if totsteps = 0 then .error .zeroDivisionError
  else
    let numsym := halfEven (width * step) totsteps
    .ok (['['] ++ List.replicate numsym '=' ++ List.replicate (width - numsym) ' ' ++ [']'])

/-- `'{:3.1f}'.format(step / float(totsteps) * 100)`, /repo/radvel/mcmc.py 134, 89. -/
def percentText (step totsteps : Nat) : Text :=
  let n := halfEven (1000 * step) totsteps
  padLeft 3 (digits (n / 10) ++ ['.'] ++ [Nat.digitChar (n % 10)])

/-- The first line of `_status_message_CLI`, /repo/radvel/mcmc.py 86-90. -/
def progressLine (ncomplete totsteps : Nat) : Except PyErr Text :=
  match progressBar ncomplete totsteps with
  | .error e => .error e
  | .ok bar => .ok (bar ++ [' '] ++ digits ncomplete ++ ['/'] ++ digits totsteps ++ " (".toList ++ percentText ncomplete totsteps ++ "%) steps complete; ".toList)

/-- What is on the screen after a round, /repo/radvel/mcmc.py 169-173 with `totsteps` of 347. -/
def display (cfg : McConfig) (st : McState) : Except PyErr Text := progressLine st.ncomplete (cfg.nrun * cfg.nwalkers * cfg.ensembles)

end Radvel
