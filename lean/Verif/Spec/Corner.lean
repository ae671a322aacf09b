import Verif.Model.Report

/-! # Specification for C161 -/

namespace Radvel

/-- The symbols of the derived quantities, with the letter of the planet: M_b sin i, rho_b, a_b. -/
def derivedSymbol (k letter : Text) : Text :=
  if k = "mpsini".toList then "$M_".toList ++ letter ++ "\\sin i$".toList else if k = "rhop".toList then "$\\rho_".toList ++ letter ++ "$".toList else "$a_".toList ++ letter ++ "$".toList

end Radvel
