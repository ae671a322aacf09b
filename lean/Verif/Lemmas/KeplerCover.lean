import Verif.Lemmas.KeplerBox

/-! # A subdivision on which `boxOk` answers positively: squared anomalies up to 1.04, scaled distances to eccentricity 1 up to 12 -/

namespace Radvel

/-- The subdivision, found by bisection. -/
def rightCut : Cut :=
  (.x (.x (.x (.x (.x (.x (.z (.x (.s .o (.z (.x (.s .o (.z .o .o)) (.s .o (.z .o .o))) (.x (.s .o (.z (.x .o .o) (.x .o (.s .o .o)))) (.s .o (.z (.s .o .o) (.s .o (.x .o .o))))))) (.s .o (.z (.s .o (.z .o (.x .o .o))) (.s
  .o (.z (.x (.s .o .o) .o) (.x (.s .o (.z .o .o)) (.s .o (.z .o .o)))))))) (.x (.s .o (.z (.x (.s .o (.z (.x (.s .o .o) (.s .o .o)) (.x (.s .o (.z .o .o)) (.s .o (.z .o .o))))) (.s .o (.z (.s .o (.x .o .o)) (.s (.x .o .o)
  (.x (.z .o .o) (.z .o .o)))))) (.x (.s (.z .o (.x .o .o)) (.z (.x (.s .o (.z (.x .o .o) (.x .o (.s .o .o)))) (.s .o (.z (.s .o .o) (.s .o (.x .o .o))))) (.x (.s .o (.z (.x .o (.s .o .o)) (.x .o (.s .o .o)))) (.s (.z .o
  .o) (.z (.s .o (.x .o .o)) (.s .o (.x .o .o))))))) (.s (.z .o (.s .o .o)) (.z (.s (.x (.z .o .o) (.z .o .o)) (.x (.z .o (.s .o (.x .o .o))) (.z (.s .o .o) (.s .o .o)))) (.s (.x (.z .o (.s .o .o)) (.z .o (.s .o .o))) (.x
  (.z (.s .o (.x (.z .o .o) (.z .o .o))) (.s .o (.x (.z .o .o) (.z (.s .o .o) (.s .o .o))))) (.z (.s .o (.z .o (.x .o .o))) (.s .o (.z (.x (.s .o .o) .o) (.x (.s .o .o) (.s .o .o)))))))))))) (.s .o (.z (.s (.z .o (.x .o
  .o)) (.z (.x (.s .o (.z (.x .o .o) (.x .o .o))) (.s (.z .o .o) (.z (.x .o .o) (.x .o .o)))) (.x (.s (.z .o (.x .o .o)) (.z (.x .o .o) (.x (.s .o .o) (.s .o .o)))) (.s (.z .o (.x .o .o)) (.z (.x (.s .o .o) (.s .o .o)) (.x
  (.s .o .o) (.s .o .o))))))) (.s (.z (.x .o .o) (.x (.s .o .o) (.s .o (.z .o .o)))) (.z (.x (.s (.z (.x .o .o) (.x .o .o)) (.z (.x (.s .o .o) (.s .o .o)) (.x (.s .o .o) (.s .o (.z .o .o))))) (.s (.z (.x .o .o) (.x (.s .o
  .o) (.s .o .o))) (.z (.x (.s .o (.z .o .o)) (.s .o (.z .o .o))) (.x (.s .o (.z .o .o)) (.s (.z .o .o) (.z .o (.x .o .o))))))) (.x (.s (.z (.x (.s .o .o) (.s .o .o)) (.x (.s .o .o) (.s .o .o))) (.z (.x (.s .o (.z .o .o))
  (.s (.z .o .o) (.z .o .o))) (.x (.s (.z .o .o) (.z (.x .o .o) (.x (.s .o .o) (.s .o .o)))) (.s (.z .o .o) (.z (.x .o .o) (.x .o .o)))))) (.s (.z (.x (.s .o .o) (.s .o .o)) (.x (.s .o (.z .o .o)) (.s .o (.z .o .o)))) (.z
  (.x (.s (.z .o .o) (.z (.x .o .o) (.x .o .o))) (.s (.z .o .o) (.z (.x .o .o) (.x .o .o)))) (.x (.s (.z .o (.x .o .o)) (.z (.x .o .o) (.x .o .o))) (.s (.z (.x .o .o) (.x .o .o)) (.z (.x .o .o) (.x (.s .o .o) (.s .o
  .o)))))))))))))) (.z (.s .o (.z (.x (.s .o (.z .o .o)) (.s .o (.z .o .o))) (.x (.s .o (.z (.x .o .o) (.x (.s .o (.z .o .o)) (.s .o (.z .o .o))))) (.s (.z .o .o) (.z (.x .o .o) (.x .o (.s .o .o))))))) (.s (.z .o (.x .o
  .o)) (.z (.x (.s (.z .o (.x .o .o)) (.z (.x (.s (.z .o .o) (.z (.x .o .o) (.x .o .o))) (.s .o (.z .o (.x .o .o)))) (.x (.s (.z .o (.x .o .o)) (.z (.x (.s .o .o) .o) (.x (.s .o (.z .o .o)) (.s .o (.z .o .o))))) (.s (.z .o
  .o) (.z (.x .o .o) (.x (.s .o (.z .o .o)) (.s .o .o))))))) (.s (.z .o (.x .o .o)) (.z (.x (.s .o (.z .o .o)) (.s .o (.z .o .o))) (.x (.s (.z .o .o) (.z (.x .o .o) (.x .o .o))) (.s (.z .o .o) (.z .o (.s .o .o))))))) (.x
  (.s (.z (.x .o .o) (.x (.s .o (.z .o .o)) (.s .o (.z .o (.x .o .o))))) (.z (.x (.s (.z (.x .o .o) (.x (.s .o .o) .o)) (.z (.x (.s .o (.z .o .o)) (.s .o (.z .o .o))) (.x (.s (.z .o .o) (.z (.x .o .o) (.x .o .o))) (.s (.z
  .o .o) (.z (.x .o .o) (.x .o .o)))))) (.s (.z (.x .o .o) (.x .o .o)) (.z (.x (.s .o (.z .o .o)) (.s .o (.z .o .o))) (.x (.s (.z .o .o) (.z .o .o)) (.s (.z .o .o) .o))))) (.x (.s (.z (.x (.s .o .o) (.s .o .o)) (.x (.s .o
  (.z .o .o)) (.s .o (.z .o .o)))) (.z (.x (.s (.z .o (.x .o .o)) (.z (.x .o .o) (.x .o .o))) (.s (.z .o (.x .o .o)) (.z (.x .o .o) (.x .o .o)))) (.x (.s (.z (.x .o .o) (.x .o .o)) (.z (.x .o .o) (.x .o .o))) (.s (.z (.x
  .o .o) (.x .o .o)) (.z (.x .o .o) .o))))) (.s (.z (.x (.s .o .o) (.s .o .o)) (.x (.s .o (.z .o .o)) (.s .o (.z .o .o)))) (.z (.x (.s (.z .o (.x .o .o)) (.z .o .o)) (.s (.z .o .o) .o)) (.x (.s (.z (.x .o .o) (.x .o .o))
  (.z .o .o)) (.s (.z (.x .o .o) (.x .o .o)) .o))))))) (.s (.z (.x .o .o) (.x (.s .o (.z .o .o)) (.s .o (.z .o .o)))) (.z (.x (.s (.z .o (.x .o .o)) (.z (.x (.s .o .o) (.s .o .o)) (.x (.s .o .o) .o))) (.s (.z .o .o) (.z
  (.s (.x .o .o) .o) .o))) (.x (.s (.z (.x .o .o) (.x (.s .o (.z .o .o)) (.s .o .o))) (.z (.x (.s (.z .o .o) .o) .o) (.x (.s (.z .o .o) .o) .o))) (.s (.z (.s .o (.x .o .o)) (.s .o (.x .o .o))) (.z .o .o)))))))))) (.z (.s
  (.x (.z .o .o) (.z .o .o)) (.x (.z (.s (.x .o .o) (.x (.z .o .o) (.z (.s .o .o) (.s .o (.z .o .o))))) (.s (.x (.z .o .o) (.z .o .o)) (.x (.z (.s .o (.x .o .o)) (.s (.x .o .o) (.x (.z .o .o) (.z .o .o)))) (.z (.s .o (.z
  .o .o)) (.s (.z .o .o) (.z .o .o)))))) (.z (.s (.z .o .o) (.z (.x (.s .o .o) (.s .o .o)) (.x (.s .o (.z .o .o)) (.s .o .o)))) (.s (.z (.x .o .o) (.x (.s .o .o) (.s .o .o))) (.z (.x (.s (.z .o .o) .o) (.s (.z .o .o) .o))
  (.x (.s (.z .o .o) .o) .o)))))) (.s (.x (.z .o .o) .o) (.x (.z (.s (.x (.z .o (.s .o (.x .o .o))) (.z .o .o)) (.x (.z (.s (.x .o .o) (.x (.z .o .o) (.z .o .o))) (.s (.x (.z .o .o) (.z .o .o)) (.x (.z .o .o) .o))) (.z (.s
  (.z .o (.x .o .o)) .o) (.s (.z (.x .o .o) .o) .o)))) (.s (.x (.z (.s .o (.x .o .o)) .o) .o) (.x (.z (.s (.x (.z .o .o) (.z .o .o)) (.x .o .o)) (.s (.x (.z .o .o) .o) .o)) .o))) (.z (.s (.z (.x (.s .o .o) .o) .o) (.z .o
  .o)) .o))))) (.z (.x (.s (.z .o .o) (.z (.x (.s (.z .o .o) (.z (.x (.s .o .o) (.s .o .o)) (.x .o .o))) (.s (.z .o (.x .o .o)) (.z .o .o))) (.x (.s (.z (.x .o .o) (.x .o .o)) (.z .o .o)) (.s (.z (.x (.s .o .o) .o) .o)
  .o)))) (.s (.z (.s .o .o) .o) (.z (.s (.x (.z .o (.s .o .o)) (.z (.s .o .o) .o)) .o) .o))) (.x (.s .o (.z (.x .o .o) .o)) .o))) (.z (.x (.s (.z (.x (.s .o (.z .o .o)) (.s .o (.z .o .o))) .o) (.z (.x (.s (.z (.x (.s .o
  .o) .o) .o) .o) .o) .o)) (.s (.z (.s .o (.x (.z (.s .o .o) .o) (.z (.s .o .o) .o))) .o) .o)) .o)) (.z (.x (.s (.z (.x (.s .o (.z (.x (.s .o .o) .o) .o)) (.s .o .o)) .o) .o) (.s (.z (.x (.s .o .o) (.s .o .o)) .o) .o))
  .o)) (.z (.x (.s (.z (.x (.s .o .o) (.s (.z (.x (.s .o .o) (.s .o .o)) .o) .o)) .o) .o) (.s (.z (.x (.s (.z (.x (.s .o .o) (.s .o .o)) .o) .o) .o) .o) .o)) .o))

set_option maxRecDepth 100000 in
/-- Evaluated by the kernel. -/
theorem rightCut_ok : coverOk rightCut ⟨0, 1090520⟩ ⟨0, 12582912⟩ ⟨0, 629147⟩ = true := by decide +kernel

end Radvel
