import Verif.Model.TexLabels

/-!
# Texts of priors, `__str__` of /repo/radvel/prior.py, and `tab_prior_summary`, /repo/radvel/report.py 270-300

Numbers enter as the texts that `'{}'.format(x)` gives.
-/

namespace Radvel

/-- The attributes of a prior that its text shows, /repo/radvel/prior.py. `ecc`: pairs of `planet_list` and `upperlims`, which have the same length (99-113). -/
inductive PriorShow
  | gaussian (param mu sigma : List Char)
  | ecc (limits : List (Nat × List Char))
  | posK
  | hardBounds (param minval maxval : List Char)
  | secEclipse (ts tsErr : List Char)
  | jeffreys (param minval maxval : List Char)
  | modJeffreys (param minval maxval kneeval : List Char)
  | numerical (params : List (List Char))
  | user (texRep : List Char)
  | baseline (param baseline duration : List Char)

/-- `model.Parameters(9).tex_labels(param_list=[param])[param]`, /repo/radvel/prior.py 54, 241, 352, 408: the default basis, /repo/radvel/model.py 101, and the default letters. -/
def tex9 (k : List Char) : Except PyErr (List Char) := labelOf (BasisName.perTcSecoswSesinwLogk.words.map PName.chars) none k

/-- `"e{}".format(num_planet)`, /repo/radvel/prior.py 93. -/
def eccKey (n : Nat) : List Char := "e".toList ++ Nat.toDigits 10 n

/-- One turn of the loop of `EccentricityPrior.__str__`, /repo/radvel/prior.py 92-95; `tex` holds the keys of nine planets (89). -/
def eccLine (msg : List Char) (x : Nat × List Char) : Except PyErr (List Char) :=
  if 1 ≤ x.1 ∧ x.1 ≤ 9 then do
    let label ← labelOf (BasisName.perTcEWK.words.map PName.chars) none (eccKey x.1)
    return msg ++ label ++ " constrained to be $<".toList ++ x.2 ++ "$ \\\\\\\\\n".toList
  else .error .keyError

/-- `s[:-n]`. Used for /repo/radvel/prior.py 97, 275. -/
def dropEnd (n : Nat) (s : List Char) : List Char := s.take (s.length - n)

/-- `'{}, '.format(t[el])`, /repo/radvel/prior.py 487. -/
def commaItem (t : List (List Char)) (i : Nat) : Except PyErr (List Char) :=
  match t[i]? with
  | some x => .ok (x ++ ", ".toList)
  | none => .error .indexError

/-- `'and {}'.format(t[el+1])` after `n` turns, /repo/radvel/prior.py 488: without a turn there is no `el`. -/
def lastItem (t : List (List Char)) (n : Nat) : Except PyErr (List Char) :=
  if n = 0 then .error .unboundLocalError
  else
    match t[n]? with
    | some x => .ok ("and ".toList ++ x)
    | none => .error .indexError

/-- `NumericalPrior.__str__` for three and more parameters (or none), /repo/radvel/prior.py 485-488: `n` turns and the last label. -/
def commaList (t : List (List Char)) (n : Nat) : Except PyErr (List Char) := do
  let l ← (List.range n).mapM (commaItem t)
  let x ← lastItem t n
  return l.flatten ++ x

/-- The list of names in `NumericalPrior.__str__`, /repo/radvel/prior.py 480-488; `n` is `len(self.param_list)`, `t` the labels of its different elements. -/
def nameList (n : Nat) (t : List (List Char)) : Except PyErr (List Char) :=
  if n = 1 then
    match t with
    | x :: _ => .ok x
    | [] => .error .indexError
  else if n = 2 then
    match t with
    | x :: y :: _ => .ok (x ++ " and ".toList ++ y)
    | _ => .error .indexError
  else commaList t (n - 1)

/-- `prior.__str__()`, /repo/radvel/prior.py 52-60, 88-97, 166-167, 239-249, 272-275, 350-360, 406-416, 476-494, 553-555. `InformativeBaselinePrior` has none:
`__repr__` (583-587) is used. The `except KeyError` of the first, fourth, sixth, seventh and eighth is never reached: without letters of the user's no label raises it. -/
def priorStr : PriorShow → Except PyErr (List Char)
  | .gaussian p mu sigma => do
    let tex ← tex9 p
    return "Gaussian prior on ".toList ++ tex ++ ": $".toList ++ mu ++ " \\pm ".toList ++ sigma ++ "$ \\\\".toList
  | .ecc l => do
    let msg ← l.foldlM eccLine []
    return dropEnd 5 msg
  | .posK => .ok "$K$ constrained to be $>0$".toList
  | .hardBounds p a b => do
    let tex ← tex9 p
    return "Bounded prior: $".toList ++ a ++ " < ".toList ++ replaceAll "$".toList [] tex ++ " < ".toList ++ b ++ "$".toList
  | .secEclipse ts e => .ok (dropEnd 5 ("secondary eclipse prior: $".toList ++ ts ++ " \\pm ".toList ++ e ++ "$ \\\\\\\\\n".toList))
  | .jeffreys p a b => do
    let tex ← tex9 p
    return "Jeffrey's prior: $".toList ++ a ++ " < ".toList ++ replaceAll "$".toList [] tex ++ " < ".toList ++ b ++ "$".toList
  | .modJeffreys p a b k => do
    let tex ← tex9 p
    return "Modified Jeffrey's prior: knee = ".toList ++ k ++ "; $".toList ++ a ++ " < ".toList ++ replaceAll "$".toList [] tex ++ " < ".toList ++ b ++ "$".toList
  | .numerical ps => do
    let d ← texLabels (BasisName.perTcSecoswSesinwLogk.words.map PName.chars) none ps
    let names ← nameList ps.length (d.map Prod.snd)
    return "Numerical prior on ".toList ++ names ++ ", defined using Gaussian kernel density estimation.".toList
  | .user r => .ok r
  | .baseline p b d => .ok ("Informative baseline prior on ".toList ++ p ++ ", baseline=".toList ++ b ++ ", duration=".toList ++ d)

/-- One row of the table, /repo/radvel/report.py 286-289. -/
def priorRow (p : PriorShow) : Except PyErr (List Char) := do
  let row ← priorStr p
  return if "\\\\".toList.isSuffixOf row then row else row ++ "\\\\".toList

/-- The rows of `tab_prior_summary`, /repo/radvel/report.py 283-289. -/
def priorRows (ps : List PriorShow) : Except PyErr (List (List Char)) := ps.mapM priorRow

/-- A row in the document, /repo/radvel/templates/tab_prior_summary.tex 5-7. -/
def priorLine (row : List Char) : List Char := "  ".toList ++ row ++ " \\\\".toList

/-- The title, /repo/radvel/report.py 291-295. -/
def priorTitle (nameInTitle : Bool) (star : List Char) : List Char :=
  if nameInTitle then star ++ " Summary of Priors".toList else "Summary of Priors".toList

end Radvel
