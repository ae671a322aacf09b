import Verif.Model.Pipeline
import Verif.Model.Report
import Verif.Model.Print

/-!
# The table of convergence criteria: `radvel/report.py` 382-408, `radvel/driver.py` 470-489, 513-516

The numbers reach the table as the texts that the status file holds. `float(text)` is `pyFloat` of Model/Driver: an exact decimal. The rounding of that decimal to a binary number, which can
decide the last digit of a tie, and the overflow of huge exponents to infinity are not modelled.
-/

namespace Radvel

/-- `a / b` to the nearest integer, ties to even. Used for /repo/radvel/report.py 394. -/
def halfEven (a b : Nat) : Nat := if 2 * (a % b) < b then a / b else if b < 2 * (a % b) then a / b + 1 else if a / b % 2 = 0 then a / b else a / b + 1

/-- `m · 10^e` in thousandths. Used for /repo/radvel/report.py 394. -/
def thousandths (m : Nat) (e : Int) : Nat := if 0 ≤ e + 3 then m * 10 ^ (e + 3).toNat else halfEven m (10 ^ (-(e + 3)).toNat)

/-- `'{:.3f}'.format(x)`. Used for /repo/radvel/report.py 394. -/
def fixed3 : FloatText → Text
  | .dec negative m e =>
    let n := thousandths m e
    (if negative then ['-'] else []) ++ digits (n / 1000) ++ ['.'] ++ [Nat.digitChar (n / 100 % 10), Nat.digitChar (n / 10 % 10), Nat.digitChar (n % 10)]
  | .inf negative => (if negative then ['-'] else []) ++ "inf".toList
  | .nan => "nan".toList

/-- The names of the rows, /repo/radvel/report.py 389. -/
def critNames : List Text := ["minAfactor".toList, "maxArchange".toList, "maxGR".toList, "minTz".toList]

/-- The values as the command reads them, /repo/radvel/driver.py 478-490 (`tables`) and 709-721 (`report`); `None` is `none`. The order is that of /repo/radvel/report.py 390. -/
def critValues (status : Config) (sampler : Text) : Except PyErr (List (Option Text)) :=
  if sampler = "mcmc".toList then do
    let minafactor ← getOption status "mcmc".toList "minafactor".toList
    let maxarchange ← getOption status "mcmc".toList "maxarchange".toList
    let maxgr ← getOption status "mcmc".toList "maxgr".toList
    let mintz ← getOption status "mcmc".toList "mintz".toList
    .ok [some minafactor, some maxarchange, some maxgr, some mintz]
  else if sampler = "ns".toList then .ok [none, none, none, none]
  else .error .valueError

/-- `'${:7.3f}$'.format(float(val)) if val is not None else "None"`, /repo/radvel/report.py 394. -/
def critCell : Option Text → Except PyErr Text
  | none => .ok "None".toList
  | some v =>
    match pyFloat v with
    | some x => .ok (['$'] ++ padLeft 7 (fixed3 x) ++ ['$'])
    | none => .error .valueError

/-- One turn of the loop, /repo/radvel/report.py 392-395. -/
def critRow (x : Text × Option Text) : Except PyErr Text :=
  match critCell x.2 with
  | .ok cell => .ok (x.1 ++ " & ".toList ++ cell)
  | .error e => .error e

/-- The rows of `tab_crit` as `tables -t crit` (or `report`) makes them from the status file: /repo/radvel/driver.py 473-490, 501, /repo/radvel/report.py 382-408. The reading of samples and
posterior in between and the LaTeX template around the rows are left out. -/
def critTable (request : Text) (stat : Option Text) : Except PyErr (List Text) := do
  let status ← loadStatus stat
  let sampler ← pickSampler request status
  let values ← critValues status sampler
  (critNames.zip values).mapM critRow

end Radvel
