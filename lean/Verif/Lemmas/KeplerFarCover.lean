import Verif.Lemmas.KeplerFarBox
import Verif.Lemmas.KeplerCover

/-! # A subdivision on which `farOk` answers positively: eccentricities from 0.93 to 0.99, anomalies from 1.0197 to half a turn -/

namespace Radvel

/-- The subdivision, found by bisection. -/
def farCut : Cut :=
  (.x (.x (.s (.x (.s (.x (.s .o (.x (.s .o (.x (.s (.z .o .o) (.z (.x (.s .o (.z .o .o)) (.s .o (.z .o .o))) (.x .o .o))) (.s .o (.z (.x (.s .o .o) (.s .o .o)) (.x .o .o))))) (.s .o (.x (.s .o (.z (.x .o .o) (.x .o
  .o))) (.s .o (.z .o (.x (.s .o .o) .o))))))) (.s .o (.x (.s .o (.x (.s .o (.z .o .o)) .o)) (.s .o .o)))) (.x (.s (.x (.s (.x (.s (.z (.x .o .o) .o) .o) (.s (.z (.x .o .o) (.x .o .o)) (.z .o .o))) (.x .o .o)) (.s (.x
  (.s (.z (.x (.s (.z .o .o) .o) (.s (.z .o .o) .o)) (.x .o .o)) (.z .o .o)) (.s (.z (.x (.s .o .o) (.s .o .o)) (.x .o .o)) (.z (.x .o .o) .o))) (.x .o .o))) (.x .o .o)) (.s (.x (.s (.x (.s (.z (.x (.s .o .o) (.s .o .o))
  (.x .o .o)) (.z (.x .o .o) .o)) (.s (.z (.x (.s .o .o) (.s .o .o)) (.x .o .o)) (.z (.x .o .o) .o))) (.x .o .o)) (.s (.x (.s (.z (.x .o .o) (.x .o .o)) (.z (.x .o .o) (.x .o .o))) (.s (.z .o (.x .o .o)) (.z (.x .o .o)
  (.x .o .o)))) (.x .o (.s (.z (.x .o .o) .o) .o)))) (.x .o .o)))) (.s (.x .o .o) (.x (.s (.x (.s (.x (.s .o (.z (.x (.s .o .o) (.s .o .o)) (.x .o .o))) (.s .o (.z (.x (.s .o .o) .o) (.x .o .o)))) (.x (.s (.z (.x .o .o)
  .o) .o) (.s (.z (.x .o .o) .o) .o))) (.s (.x (.s .o (.z .o (.x .o .o))) (.s .o (.z .o .o))) (.x (.s (.z (.x .o .o) .o) .o) (.s (.z (.x .o .o) .o) (.z .o .o))))) (.x .o .o)) (.s (.x (.s (.x (.s .o .o) .o) (.x (.s (.z
  (.x .o .o) .o) (.z .o .o)) (.s (.z (.x .o .o) (.x .o .o)) (.z .o .o)))) (.s .o (.x (.s (.z .o (.x .o .o)) (.z (.x .o .o) .o)) (.s .o (.z (.x .o .o) .o))))) (.x .o (.s (.x .o .o) .o)))))) (.x (.s (.x .o .o) .o) (.s (.x
  .o .o) .o))) (.s (.x (.s .o (.x (.s (.x (.s .o (.x (.s .o (.z (.x .o .o) .o)) (.s .o (.z .o .o)))) (.s .o (.x (.s .o (.z .o .o)) (.s .o .o)))) (.x (.s (.x (.s (.z .o .o) .o) (.s (.z .o .o) .o)) .o) (.s (.x (.s (.z (.x
  .o .o) .o) .o) (.s (.z (.x .o .o) .o) .o)) .o))) (.s (.x (.s .o (.x .o .o)) .o) (.x (.s (.x (.s (.z (.x .o .o) .o) (.z .o .o)) (.s (.z .o (.x .o .o)) (.z (.x .o .o) .o))) .o) (.s (.x (.s (.z .o .o) (.z (.x .o .o) .o))
  (.s .o (.z (.x .o (.s .o .o)) .o))) (.x .o (.s (.z .o .o) .o))))))) (.s .o (.x (.s .o (.x (.s (.x (.s .o (.z (.x .o .o) (.x .o .o))) (.s .o (.z .o (.x .o .o)))) (.x (.s (.z (.x .o .o) .o) .o) (.s (.z (.x .o .o) .o)
  .o))) (.s (.x (.s .o (.z .o .o)) (.s .o .o)) (.x (.s (.z (.x .o (.s .o .o)) (.x .o .o)) (.z .o .o)) (.s (.z (.x (.s .o .o) .o) (.x .o .o)) (.z (.x .o .o) .o)))))) (.s .o (.x (.s (.x .o .o) (.x (.s (.z (.x .o .o) (.x .o
  .o)) (.z (.x .o .o) .o)) (.s (.z .o .o) (.z (.x .o (.s .o .o)) (.x .o .o))))) (.s .o (.x (.s (.z .o .o) (.z (.x (.s .o .o) (.s .o .o)) (.x .o .o))) (.s .o (.z (.x .o .o) (.x .o .o)))))))))) (.x (.s (.x .o .o) .o) (.s
  (.x (.s (.x .o .o) .o) (.s (.x (.s (.x .o (.s (.z .o .o) .o)) .o) (.s (.x (.s (.z (.x .o .o) .o) .o) (.s (.z (.x .o .o) .o) .o)) .o)) .o)) .o)))) (.x (.s (.x (.s .o (.x (.s .o (.x (.s .o (.x (.s .o (.z .o (.x .o .o)))
  (.s .o (.z .o .o)))) (.s .o (.x (.s .o .o) .o)))) (.s .o (.x .o .o)))) .o) (.x (.s (.x (.s (.x (.s (.x (.s (.z (.x (.s .o .o) (.s .o .o)) (.x .o .o)) (.z .o .o)) (.s (.z (.x (.s .o .o) (.s .o .o)) (.x .o .o)) (.z (.x
  .o .o) .o))) .o) (.s (.x (.s (.z (.x .o .o) (.x (.s .o .o) (.s .o .o))) (.z (.x .o .o) .o)) (.s (.z .o (.x .o .o)) (.z (.x (.s .o .o) (.s .o .o)) (.x .o .o)))) (.x .o (.s (.z (.x .o .o) .o) .o)))) .o) (.s (.x (.s (.x
  (.s (.z .o .o) (.z (.x (.s .o .o) (.s .o .o)) (.x .o .o))) (.s .o (.z (.x .o .o) (.x (.s .o .o) .o)))) (.x (.s (.z (.x .o .o) .o) .o) (.s (.z (.x .o (.s .o .o)) (.x .o .o)) .o))) (.s (.x (.s .o (.z .o (.x .o .o))) (.s
  .o (.z .o .o))) (.x (.s (.z (.x (.s .o .o) (.s .o .o)) (.x .o .o)) (.z (.x .o .o) .o)) (.s (.z (.x (.s .o .o) (.s .o .o)) (.x .o (.s .o .o))) (.z (.x .o .o) .o))))) (.x .o .o))) .o) (.s (.x (.s (.x (.s (.x (.s .o .o)
  .o) (.x (.s (.z (.x .o .o) (.x (.s .o .o) .o)) (.z (.x (.s .o .o) (.s .o .o)) (.x .o .o))) (.s (.z .o .o) (.z (.x (.s .o .o) (.s .o .o)) (.x .o .o))))) (.s .o (.x (.s (.z .o .o) (.z (.x (.s .o .o) .o) (.x (.s .o .o)
  (.s .o .o)))) (.s .o (.z .o (.x .o .o)))))) (.x (.s (.x .o (.s (.z (.x .o .o) .o) .o)) .o) (.s (.x (.s (.z (.x .o .o) (.x .o .o)) .o) (.s (.z (.x (.s .o .o) (.s .o .o)) (.x .o .o)) (.z (.x .o .o) .o))) .o))) (.s (.x
  (.s .o (.x (.s .o (.z .o .o)) (.s .o .o))) (.s .o (.x .o .o))) (.x (.s (.x (.s (.z (.x (.s .o .o) .o) (.x .o (.s .o .o))) (.z (.x .o .o) .o)) (.s (.z (.x .o .o) (.x .o .o)) (.z (.x .o (.s .o .o)) (.x .o .o)))) (.x .o
  .o)) (.s (.x (.s (.z .o .o) (.z (.x (.s .o .o) (.s .o .o)) (.x .o .o))) (.s .o (.z (.x .o .o) (.x .o .o)))) (.x (.s (.z (.x .o .o) .o) .o) (.s (.z (.x .o .o) .o) .o)))))) (.x .o .o)))) (.s .o (.x (.s (.x (.s .o (.x (.s
  (.x (.s .o (.z .o .o)) (.s .o .o)) (.x (.s (.z (.x (.s .o .o) (.s .o .o)) (.x .o .o)) (.z (.x .o .o) .o)) (.s (.z (.x .o .o) (.x .o .o)) (.z (.x .o .o) .o)))) (.s (.x .o .o) (.x (.s (.z .o .o) (.z (.x .o .o) (.x .o
  .o))) (.s .o (.z (.x .o .o) (.x .o .o))))))) (.s .o (.x (.s .o (.x (.s .o (.z .o .o)) (.s .o .o))) (.s .o (.x .o .o))))) (.x (.s (.x .o (.s (.x (.s (.z .o .o) .o) (.s (.z (.x .o .o) .o) .o)) .o)) .o) (.s (.x (.s (.x
  (.s (.z (.x .o .o) .o) (.z .o .o)) (.s (.z .o (.x .o .o)) (.z (.x .o .o) .o))) .o) (.s (.x (.s (.z .o .o) (.z (.x .o .o) .o)) (.s .o (.z .o .o))) (.x (.s (.z .o .o) .o) (.s (.z .o .o) .o)))) .o))) (.s (.x (.s .o .o)
  .o) (.x (.s (.x (.s (.x (.s .o .o) .o) (.x (.s (.z .o .o) (.z .o .o)) (.s (.z .o .o) (.z .o .o)))) (.s .o (.x (.s .o (.z .o .o)) (.s .o .o)))) (.x .o (.s (.x .o (.s (.z .o .o) .o)) .o))) (.s (.x (.s .o .o) .o) (.x (.s
  (.x (.s .o .o) (.s .o .o)) (.x .o .o)) (.s (.x .o .o) (.x .o .o))))))))))

set_option maxRecDepth 100000 in
/-- Evaluated by the kernel. -/
theorem farCut_ok : farCover farCut ⟨975175, 1038091⟩ ⟨1069300, 3294199⟩ ⟨0, 1730150⟩ = true := by decide +kernel

end Radvel
