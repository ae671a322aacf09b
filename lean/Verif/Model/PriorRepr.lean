import Verif.Model.Status

/-!
# The priors in a printed posterior, `Posterior.__repr__`, /repo/radvel/posterior.py 30-36, and `__repr__` of /repo/radvel/prior.py

Numbers and lists enter as the texts that `'{}'.format(x)` gives.
-/

namespace Radvel

/-- The attributes of a prior, /repo/radvel/prior.py 34-37, 99-113, 169-170, 206-216, 277-281, 328-333, 381-389, 443-465, 530-534, 578-581. `kde` and `func` stand for the samples or the function. -/
inductive PriorAttrs
  | gaussian (param mu sigma : Text)
  | ecc (limits : List (Nat × Text))
  | posK (numPlanets : Nat)
  | hardBounds (param minval maxval : Text)
  | secEclipse (planet : Nat) (ts tsErr : Text)
  | jeffreys (param minval maxval : Text)
  | modJeffreys (param minval maxval kneeval : Text)
  | numerical (paramList : Text) (kde : Nat)
  | user (paramList : Text) (func : Nat)
  | baseline (param baseline duration : Text)
  deriving DecidableEq

/-- One turn of the loop of `EccentricityPrior.__repr__`, /repo/radvel/prior.py 84. -/
def eccReprLine (x : Nat × Text) : Text := "e".toList ++ Nat.toDigits 10 x.1 ++ " constrained to be < ".toList ++ x.2 ++ "\n".toList

/-- `prior.__repr__()`, /repo/radvel/prior.py 46-50, 81-86, 163-164, 233-237, 266-270, 345-349, 401-405, 470-474, 547-551, 583-587; `msg[:-1]` drops the last character. -/
def priorRepr : PriorAttrs → Text
  | .gaussian p m s => "Gaussian prior on ".toList ++ p ++ ", mu=".toList ++ m ++ ", sigma=".toList ++ s
  | .ecc l => (l.map eccReprLine).flatten.dropLast
  | .posK _ => "K constrained to be > 0".toList
  | .hardBounds p a b => "Bounded prior on ".toList ++ p ++ ", min=".toList ++ a ++ ", max=".toList ++ b
  | .secEclipse _ ts e => ("secondary eclipse constraint: ".toList ++ ts ++ " +/- ".toList ++ e ++ "\n".toList).dropLast
  | .jeffreys p a b => "Jeffrey's prior on ".toList ++ p ++ ", min=".toList ++ a ++ ", max=".toList ++ b
  | .modJeffreys p a b k => "Modified Jeffrey's prior on ".toList ++ p ++ ", knee=".toList ++ k ++ ", min=".toList ++ a ++ ", max=".toList ++ b
  | .numerical ps _ => "Numerical prior on ".toList ++ ps
  | .user ps _ => "User-defined prior on ".toList ++ ps
  | .baseline p b d => "Informative baseline prior on ".toList ++ p ++ ", baseline=".toList ++ b ++ ", duration=".toList ++ d

/-- `Posterior.__repr__`, /repo/radvel/posterior.py 30-36; `like` is the text of the likelihood (31). -/
def postRepr (like : Text) (priors : List PriorAttrs) : Text :=
  priors.foldl (fun s p => s ++ priorRepr p ++ "\n".toList) (like ++ "\nPriors\n".toList ++ "------\n".toList)

end Radvel
