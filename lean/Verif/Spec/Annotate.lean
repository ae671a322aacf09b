import Verif.Model.Annotate

/-! # Specification for C165 -/

namespace Radvel

/-- The letter of a planet: the one that the parameters were given, or `b` for planet 1, `c` for planet 2 and so on. -/
def letterOf (letters : Option (Dict Nat String)) (n : Nat) : Option Text :=
  match letters with
  | none => some [Char.ofNat ('a'.toNat + n)]
  | some d => (d.get? n).map String.toList

/-- What is to be shown for a reported median and error: both, or the median alone, with two decimals, if the error is zero or below `1e-15`. -/
noncomputable def shownReport (r : Reported) : AnoNums := if 1e-15 < r.err then .interval r.med r.err else .plain (pyRound r.med 2)

end Radvel
