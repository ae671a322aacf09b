import Verif.Model.Report
import Verif.Model.Basis

/-!
# `Likelihood.__repr__`, /repo/radvel/likelihood.py 52-139, and `Posterior.__repr__`, /repo/radvel/posterior.py 30-36

What `print(like)` and `print(post)` show. Values are real numbers; Python's `'{:g}'` is a parameter `g` of the text. A value that is not a number (`None`) makes its line disappear
(`except TypeError`); such values are not modelled.
-/

namespace Radvel

/-- `str(parameter.vary)`, likelihood.py 63, 79, 101, 123. -/
def Vary.text : Vary → Text
  | .yes => "True".toList
  | .no => "False".toList
  | .blank => []

/-- `'{:<n s}'`: pad with blanks on the right, likelihood.py 57, 69. -/
def padRight (n : Nat) (t : Text) : Text := t ++ List.replicate (n - t.length) ' '

/-- `'{:>n s}'` and `'{:n g}'`: pad with blanks on the left, likelihood.py 57, 69, 95, 111. -/
def padLeft (n : Nat) (t : Text) : Text := List.replicate (n - t.length) ' ' ++ t

/-- A line of the table: the key, the number, the uncertainty (if the table has that column) and the flag, likelihood.py 69-71, 111-113. -/
structure PrintLine where
  key : Key
  value : ℝ
  err : Option ℝ
  vary : Vary

/-- `key.startswith('tc') or key.startswith('tp')`, likelihood.py 64, 80, 106, 128. -/
def printsTime (k : Key) : Bool := "tc".toList.isPrefixOf k.render || "tp".toList.isPrefixOf k.render

/-- `par`, likelihood.py 64-67, 80-83, 106-110, 128-131: large times are shown less `model.time_base`. -/
noncomputable def printedValue (tb : ℝ) (k : Key) (v : ℝ) : ℝ := if printsTime k = true ∧ 1e6 < v then v - tb else v

/-- The line of one parameter, likelihood.py 61-73 and 100-115: without `uparams` there is no column of uncertainties; a key that is missing there has uncertainty 0. -/
noncomputable def printLine (tb : ℝ) (uparams : Option (Dict Key ℝ)) (x : Key × Parameter ℝ) : PrintLine :=
  { key := x.1, value := printedValue tb x.1 x.2.value, err := uparams.map fun u => (u.get? x.1).getD 0, vary := x.2.vary }

/-- The lines of `__repr__`, likelihood.py 52-139, and the state afterwards: the values of the vector are first copied to the dictionary (line 53). The second part, 75-91 and 117-138, shows
the parameters of the synth basis that the dictionary does not have. -/
noncomputable def printLines (dflt tb : ℝ) (uparams : Option (Dict Key ℝ)) (s : VState ℝ) : Except PyErr (VState ℝ × List PrintLine) :=
  match s.vectorToDict with
  | .error e => .error e
  | .ok s' =>
    let own := s'.params.items.map (printLine tb uparams)
    match toSynth dflt s'.params.basis true s'.params with
    | .error .typeError => .ok (s', own)
    | .error e => .error e
    | .ok q => .ok (s', own ++ (q.items.filter fun x => !s'.params.items.has x.1).map (printLine tb uparams))

/-- The text of a line, likelihood.py 69-71 and 111-113; `g` is `'{:g}'.format`. -/
def PrintLine.text (g : ℝ → Text) (l : PrintLine) : Text :=
  match l.err with
  | none => padRight 20 l.key.render ++ padLeft 15 (g l.value) ++ [' '] ++ padLeft 10 l.vary.text ++ ['\n']
  | some e => padRight 20 l.key.render ++ padLeft 15 (g l.value) ++ padLeft 10 (g e) ++ padLeft 10 l.vary.text ++ ['\n']

/-- The first line, likelihood.py 56-58 and 94-96. -/
def printHeader (uparams : Bool) : Text :=
  if uparams then padRight 20 "parameter".toList ++ padLeft 15 "value".toList ++ padLeft 10 "+/-".toList ++ padLeft 10 "vary".toList ++ ['\n']
  else padRight 20 "parameter".toList ++ padLeft 15 "value".toList ++ padLeft 10 "vary".toList ++ ['\n']

/-- The text of `__repr__` of a likelihood, likelihood.py 54-139. -/
def printText (g : ℝ → Text) (uparams : Bool) (ls : List PrintLine) : Text := printHeader uparams ++ ls.flatMap (PrintLine.text g)

/-- `Posterior.__repr__`, posterior.py 30-36; `priors` are the texts of the priors. -/
def printPost (g : ℝ → Text) (uparams : Bool) (ls : List PrintLine) (priors : List Text) : Text :=
  printText g uparams ls ++ "\nPriors\n".toList ++ "------\n".toList ++ priors.flatMap (· ++ ['\n'])

end Radvel
