import Verif.Lemmas.KeplerFarCover

/-! # A subdivision on which `startOk` answers positively: eccentricities from 0.6 to 0.99 -/

namespace Radvel

/-- The subdivision, found by bisection. -/
def startCut : Cut :=
  (.x (.x (.x (.z (.x (.z (.x (.z (.x (.z (.x (.z (.x (.z (.x (.z (.x (.z .o .o) (.z .o .o)) (.x (.z .o .o) .o)) (.z (.z .o .o) .o)) (.x (.z (.x .o .o) (.x .o .o)) (.z .o .o))) (.z (.z (.x (.z .o .o) (.z .o .o)) .o) (.z
  .o .o))) (.x (.x (.z (.x (.z .o .o) (.z .o .o)) (.x (.z (.x .o .o) (.x (.z .o .o) .o)) (.z .o (.x .o .o)))) (.z (.z .o .o) (.z .o (.x .o .o)))) (.z (.x (.z .o .o) (.z .o .o)) (.x (.z .o .o) .o)))) (.z (.z (.z (.x (.z
  .o .o) (.z .o .o)) .o) (.x (.z .o .o) (.z .o .o))) (.z (.x (.z .o .o) (.z .o .o)) (.x (.x .o .o) .o)))) (.x (.x (.z (.x (.z (.x (.z (.x (.z .o .o) (.z .o .o)) (.x (.z .o (.x .o .o)) (.z .o .o))) (.z (.x .o .o) (.x (.z
  .o .o) .o))) (.x (.z (.x (.z (.x .o .o) (.x .o .o)) (.z .o .o)) (.x (.z (.x .o .o) (.x .o .o)) (.z (.x .o .o) (.x .o .o)))) (.z (.x (.z .o .o) (.z .o .o)) (.x (.z .o .o) (.z .o .o))))) (.z (.x (.z .o (.x .o .o)) (.z .o
  .o)) (.x (.z (.x .o .o) (.x (.z .o .o) .o)) (.z (.x .o .o) (.x .o .o))))) (.x (.x (.z (.x (.z (.x (.z .o (.x .o .o)) (.z .o .o)) (.x (.z (.x .o .o) (.x .o .o)) (.z (.x .o .o) (.x .o .o)))) (.z (.z (.x .o .o) (.x .o
  .o)) (.z (.x .o .o) (.x .o .o)))) (.x (.z (.x (.z (.x .o .o) (.x .o .o)) (.z (.x .o .o) (.x .o .o))) (.x (.z .o .o) (.z .o .o))) (.z (.x (.z (.x .o .o) (.x .o .o)) (.z .o .o)) (.x .o .o)))) (.z (.z (.x (.z (.x .o .o)
  (.x .o .o)) (.z .o .o)) (.x (.z (.x .o .o) (.x .o .o)) (.z .o (.x .o .o)))) (.z (.x (.z (.x .o .o) (.x .o .o)) (.z (.x .o .o) (.x .o .o))) (.x (.z (.x .o .o) (.x .o .o)) (.z .o .o))))) (.z (.x (.z (.x (.z .o .o) (.z .o
  .o)) (.x (.z .o .o) (.z .o .o))) (.z (.x .o .o) (.x (.z .o .o) .o))) (.x (.z (.x (.z .o .o) (.z .o .o)) (.x .o .o)) (.z (.x (.z .o .o) .o) (.x .o .o)))))) (.z (.z (.x (.z .o (.x .o .o)) (.z .o .o)) (.x (.x (.z .o .o)
  (.z .o .o)) (.z .o .o))) (.x (.z (.x (.z (.x .o .o) (.x .o .o)) (.z .o .o)) (.x (.z (.x .o .o) .o) (.z .o .o))) (.z (.z (.x .o .o) (.x .o .o)) (.x (.z .o .o) (.z .o .o)))))) (.z (.x (.z (.x .o .o) (.x (.z .o .o) .o))
  (.z .o .o)) (.x (.z (.x (.z .o .o) .o) (.x (.z .o .o) (.z .o .o))) (.z (.x .o .o) (.x .o .o)))))) (.z (.z (.z (.x (.z .o .o) (.z .o .o)) (.x (.z .o .o) (.z .o .o))) (.x (.z (.x .o .o) .o) (.z .o .o))) (.z (.x (.z .o
  .o) (.z .o .o)) (.x (.z (.x .o .o) (.x .o .o)) (.z .o .o))))) (.x (.x (.x (.z (.x (.z (.x (.z (.x (.z (.x (.z .o (.x .o .o)) (.z .o .o)) (.x (.z (.x .o .o) (.x .o .o)) (.z .o .o))) (.z (.x (.z .o .o) .o) (.x (.z .o .o)
  (.z .o .o)))) (.x (.z (.x (.z (.x .o .o) (.x .o .o)) (.z (.x .o .o) (.x .o .o))) (.x (.z (.x .o .o) (.x .o .o)) (.z (.x .o .o) (.x .o .o)))) (.z (.x (.z .o .o) (.z .o .o)) (.x (.z .o .o) (.z .o .o))))) (.z (.x (.z (.x
  .o .o) (.x .o .o)) (.z (.z .o .o) (.x .o .o))) (.x (.z (.x .o .o) (.x (.z .o .o) .o)) (.z (.x .o .o) (.x .o .o))))) (.x (.z (.x (.z (.x (.z (.x .o .o) (.x .o .o)) (.z (.x .o .o) (.x .o .o))) (.x (.z (.x .o .o) (.x .o
  .o)) (.z (.x .o .o) (.x .o .o)))) (.z (.x (.z (.x .o .o) (.x .o .o)) (.z .o .o)) (.x (.z (.x .o .o) (.x .o .o)) (.z .o .o)))) (.x (.z (.x (.z (.x .o .o) (.x .o .o)) (.z (.x .o .o) (.x .o .o))) (.x (.z (.x .o .o) (.x .o
  .o)) (.z (.x .o .o) (.x .o .o)))) (.z (.x (.z (.x .o .o) (.x .o .o)) (.z .o .o)) (.x (.z (.x .o .o) (.x .o .o)) (.z .o .o))))) (.z (.x (.z (.x (.z .o .o) .o) (.x (.z .o .o) (.z .o .o))) (.z (.x .o .o) (.x .o .o))) (.x
  (.z (.x (.z .o .o) (.z .o .o)) (.x (.z .o .o) (.z .o .o))) (.z (.x .o .o) (.x .o .o)))))) (.z (.z (.x (.z (.x .o .o) (.x (.z .o .o) .o)) (.z (.x .o .o) (.x .o .o))) (.x (.z (.x (.z .o .o) .o) (.x (.x .o .o) .o)) (.z
  (.x .o .o) (.x .o .o)))) (.x (.z (.x (.z (.x .o .o) (.x .o .o)) (.z .o (.x .o .o))) (.x (.z (.x .o .o) (.x .o .o)) (.z (.x .o .o) (.x .o .o)))) (.z (.z (.x .o .o) (.x .o .o)) (.x (.z .o .o) (.z .o .o)))))) (.x (.z (.x
  (.z (.x (.z (.x (.z (.x .o .o) (.x .o .o)) (.z (.x .o .o) (.x .o .o))) (.x (.z (.x .o .o) (.x .o .o)) (.z (.x .o .o) (.x .o .o)))) (.z (.x (.z (.x .o .o) (.x .o .o)) (.z .o .o)) (.x (.z (.x .o .o) (.x .o .o)) (.z .o
  .o)))) (.x (.z (.x (.z (.x .o .o) (.x .o .o)) (.z (.x .o .o) (.x .o .o))) (.x (.z (.x .o .o) (.x .o .o)) (.z (.x .o .o) (.x .o .o)))) (.z (.x (.z (.x .o .o) .o) (.z .o .o)) (.x (.z .o .o) (.z .o .o))))) (.z (.x (.z (.x
  (.z .o .o) (.z .o .o)) (.x (.z .o .o) (.z .o .o))) (.z (.x .o .o) (.x .o .o))) (.x (.z (.x (.z .o .o) .o) (.x (.z .o .o) .o)) (.z (.x .o .o) (.x .o .o))))) (.x (.z (.x (.z (.x (.z (.x .o .o) (.x .o .o)) (.z (.x .o .o)
  (.x .o .o))) (.x (.x (.z .o .o) (.z .o .o)) (.z (.x .o .o) .o))) (.z (.x (.z .o .o) (.z .o .o)) (.x (.z .o .o) (.z .o .o)))) (.x (.x (.z (.x (.z .o .o) .o) (.x .o .o)) (.z (.z .o .o) (.x .o .o))) (.z (.x (.z .o .o) .o)
  (.x (.z .o .o) .o)))) (.z (.x (.z (.x .o .o) (.x .o .o)) (.z (.x .o .o) (.x .o .o))) (.x (.z (.x .o .o) (.x .o .o)) (.z (.x .o .o) (.x .o .o)))))) (.z (.x (.z (.x (.z (.x .o .o) (.x .o .o)) (.z .o .o)) (.x (.z (.x .o
  .o) (.x .o .o)) (.z .o .o))) (.z (.x (.z .o .o) (.z .o .o)) (.x (.z .o .o) (.z .o .o)))) (.x (.z (.x (.z (.x .o .o) .o) (.z .o .o)) (.x (.z .o .o) (.z .o .o))) (.z (.x (.z .o .o) .o) (.x .o .o)))))) (.z (.z (.x (.z (.x
  (.z .o .o) .o) (.x (.z (.x .o .o) (.x .o .o)) (.z .o .o))) (.z (.x .o .o) (.x .o .o))) (.x (.z (.x (.z (.x .o .o) (.x .o .o)) (.z .o .o)) (.x (.z (.x .o .o) (.x .o .o)) (.z .o .o))) (.z (.x .o .o) (.x .o .o)))) (.z (.x
  (.z (.x (.z (.x .o .o) .o) (.z .o .o)) (.x (.x .o .o) (.z .o .o))) (.z (.x .o .o) (.x .o .o))) (.x (.x (.z (.x .o .o) (.x .o .o)) (.z .o .o)) (.z (.x .o .o) .o))))) (.z (.z (.x (.z (.x .o .o) (.x .o .o)) (.z .o .o))
  (.x (.x (.z .o .o) (.z .o .o)) (.z .o .o))) (.x (.z (.x (.z .o .o) (.z .o .o)) (.x (.z .o .o) .o)) (.z (.x .o .o) .o)))) (.z (.x (.z (.x .o .o) (.x .o .o)) (.z .o .o)) (.x (.z (.x .o .o) .o) (.z .o .o))))) (.z (.z (.z
  (.z (.x (.z .o .o) (.z .o .o)) (.x .o .o)) (.x (.z .o .o) (.z .o .o))) (.z (.x (.z .o .o) (.z .o .o)) (.x (.x (.z .o .o) .o) (.z .o .o)))) (.z (.x (.z .o .o) (.z .o .o)) (.x (.z .o .o) (.z .o .o))))) (.x (.x (.x (.x
  (.z (.x (.z (.x (.z (.x (.z (.x (.z (.x .o .o) (.x .o .o)) (.z (.x .o .o) .o)) (.x (.z (.x .o .o) .o) (.z .o .o))) (.z (.z (.x .o .o) (.x .o .o)) (.x (.z .o .o) (.z .o .o)))) (.x (.z (.x (.z .o .o) (.z .o .o)) (.x (.z
  .o .o) .o)) (.z (.x .o .o) (.x .o .o)))) (.z (.z (.x (.z (.x .o .o) (.x .o .o)) (.z .o .o)) (.x (.z .o .o) (.z .o .o))) (.x (.z (.x .o .o) .o) (.z .o .o)))) (.x (.z (.x (.z (.x .o .o) .o) (.z .o .o)) (.x (.z .o .o)
  .o)) (.z (.x (.z .o .o) .o) .o))) (.z (.z (.x (.z (.x (.z .o .o) .o) (.x .o .o)) (.z (.x .o .o) .o)) (.x (.z (.x .o .o) .o) (.z .o .o))) (.z (.x (.z .o .o) .o) (.x .o .o)))) (.x (.z (.x (.z .o .o) (.z .o .o)) (.x (.z
  (.x .o .o) (.x (.z .o .o) (.z .o .o))) (.z (.x .o .o) (.x (.z .o .o) .o)))) (.z (.x (.z .o .o) (.z .o (.x .o .o))) (.x (.z (.x .o .o) .o) .o)))) (.z (.z (.x (.z (.x (.z .o .o) (.z .o .o)) (.x .o .o)) (.z (.x .o .o)
  .o)) (.x (.z .o .o) (.z .o .o))) (.z (.x (.z (.x .o .o) (.x (.z .o .o) .o)) (.z (.x .o .o) .o)) (.x .o .o)))) (.z (.z (.x (.z (.x .o .o) .o) (.z .o .o)) (.x (.x (.z .o .o) (.z .o .o)) (.z .o (.x .o .o)))) (.x (.z (.x
  (.z (.x .o .o) .o) .o) .o) (.z .o .o)))) (.z (.x (.z (.x (.z .o .o) (.z .o .o)) (.x (.z .o .o) (.z .o .o))) (.z (.z .o .o) (.z (.x .o .o) .o))) (.x .o .o))) (.z (.x (.z (.x (.z .o .o) (.z .o .o)) (.x (.z (.x .o .o) (.x
  .o .o)) (.z .o .o))) (.z (.z .o .o) (.x (.z .o .o) (.z .o .o)))) (.x (.z (.x .o (.z (.x .o .o) .o)) (.x .o .o)) (.z (.x (.z .o (.x .o .o)) (.z .o .o)) (.x .o .o)))))) (.z (.z (.z (.z (.z .o .o) (.x (.z .o .o) (.z .o
  .o))) (.z (.x (.z .o .o) .o) (.x (.x .o .o) .o))) (.z (.x (.z .o .o) (.z .o .o)) (.x (.x (.z .o .o) .o) (.z .o .o)))) (.z (.x (.z (.x (.z .o .o) (.z .o .o)) (.x (.z .o .o) (.z .o .o))) (.z (.z .o .o) (.x (.z .o .o) (.z
  .o .o)))) (.x (.z (.x (.z .o (.x .o .o)) (.z .o .o)) (.x .o .o)) (.z (.x .o .o) .o))))) (.x (.x (.x (.x (.x (.z (.x (.z (.x (.z (.x (.z (.x .o (.z .o .o)) (.x .o (.z .o .o))) (.z (.z .o (.x .o .o)) .o)) (.x (.z (.x .o
  .o) .o) .o)) .o) .o) .o) .o) .o) (.z .o (.x (.z .o (.x (.z .o (.x .o (.z .o (.x (.z .o (.x .o .o)) (.z .o .o))))) (.z .o (.x (.z .o (.x .o .o)) (.z (.x .o (.z .o .o)) .o))))) (.z .o (.x (.z .o (.x (.z (.x .o .o) .o)
  .o)) (.z (.z .o (.x .o .o)) (.z (.x .o .o) .o))))))) (.z .o (.x (.z (.x .o (.z .o (.x .o .o))) (.x (.z (.x (.z .o .o) .o) (.x .o .o)) .o)) (.z (.x (.z .o (.x .o .o)) (.z .o .o)) .o)))) (.z (.x .o (.z .o (.z .o .o)))
  (.x (.z (.x (.z (.x .o .o) .o) .o) .o) .o))) (.z (.x (.z .o .o) .o) .o))) (.z (.z (.z (.z (.z (.z .o .o) (.x (.z .o .o) .o)) (.z (.x .o .o) (.x .o .o))) (.z (.x (.z .o .o) .o) (.x (.x .o .o) .o))) (.z (.x (.z (.x (.z
  .o .o) .o) (.x (.z .o .o) .o)) (.z .o .o)) (.x (.z (.x .o .o) .o) .o))) .o)) (.z (.z (.z (.z (.z .o (.x .o .o)) (.z .o .o)) (.z (.x (.z .o .o) .o) (.x .o .o))) (.z (.x (.z .o .o) .o) .o)) .o)) (.z (.z (.z (.z (.z .o
  (.x .o .o)) (.z .o .o)) (.z (.x .o .o) .o)) .o) .o))

set_option maxRecDepth 100000 in
/-- Evaluated by the kernel. -/
theorem startCut_ok : startCover startCut ⟨0, 7371489⟩ ⟨10485, 2097152⟩ = true := by decide +kernel

end Radvel
