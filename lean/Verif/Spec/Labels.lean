import Verif.Model.Params

/-!
# Specification of the labels of instrument parameters (C150)
-/

namespace Radvel

/-- Parameters an instrument has of its own; the documented names, /repo/docs and /repo/radvel/likelihood.py 331-332, /repo/radvel/gp.py 16-26. -/
inductive InstPar
  | gamma | jit | gpAmp | gpExplength | gpPer | gpPerlength | gpLength | gpProt
  deriving DecidableEq, Repr

/-- The name of the parameter without the instrument, up to and including the underscore. -/
def InstPar.stem : InstPar → String
  | .gamma => "gamma_" | .jit => "jit_" | .gpAmp => "gp_amp_" | .gpExplength => "gp_explength_" | .gpPer => "gp_per_"
  | .gpPerlength => "gp_perlength_" | .gpLength => "gp_length_" | .gpProt => "gp_Prot_"

/-- The symbol of the parameter, open for the name of the instrument. -/
def InstPar.opening : InstPar → String
  | .gamma => "\\gamma_{\\rm " | .jit => "\\sigma_{\\rm " | .gpAmp => "\\eta_{1, \\rm " | .gpExplength => "\\eta_{2, \\rm "
  | .gpPer => "\\eta_{3, \\rm " | .gpPerlength => "\\eta_{4, \\rm " | .gpLength => "\\eta_{2, \\rm " | .gpProt => "P_{\\rm rot, \\rm "

/-- Hyperparameters of Gaussian processes. -/
def InstPar.isGP : InstPar → Bool
  | .gamma | .jit => false
  | _ => true

/-- Names of parameters that an instrument's name must not contain. -/
def parWords : List String :=
  ["gamma_", "jit_", "dvdt", "curv", "gp_amp", "gp_explength", "gp_per", "gp_length", "gp_B", "gp_C", "gp_L", "gp_Prot", "}_"]

/-- A name of an instrument that contains no name of a parameter. -/
def PlainName (x : List Char) : Prop := x ≠ [] ∧ ∀ w ∈ parWords, ¬ w.toList <:+: x

/-- A text ends in a digit. -/
def EndsInDigit (x : List Char) : Prop := ∃ c, x.getLast? = some c ∧ c.isDigit = true

/-- Braces opened and not yet closed, from `n` open ones; `none`: one is closed that was not opened. -/
def openBraces : Nat → List Char → Option Nat
  | n, [] => some n
  | n, c :: t =>
    if c = '{' then openBraces (n + 1) t
    else if c = '}' then (match n with | 0 => none | m + 1 => openBraces m t)
    else openBraces n t

/-- Every brace has its partner, as LaTeX demands. -/
def Balanced (x : List Char) : Prop := openBraces 0 x = some 0

end Radvel
