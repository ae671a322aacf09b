import Verif.Model.GP
import Verif.Model.Status

/-!
# `__repr__` of the kernels, /repo/radvel/gp.py 111-114, 194-200, 283-293, 441-451

`fmt x` is the text of `'{}'.format(x)`.
-/

namespace Radvel

/-- `repr(kernel)`, /repo/radvel/gp.py 111-114 (squared exponential), 194-200 (periodic), 283-293 (quasi-periodic). -/
noncomputable def Kernel.repr (fmt : ℝ → Text) (k : Kernel) : Text :=
  match k.kind with
  | .sqExp => "SqExp Kernel with length: ".toList ++ fmt (k.par "gp_length") ++ ", amp: ".toList ++ fmt (k.par "gp_amp")
  | .per => "Per Kernel with length: ".toList ++ fmt (k.par "gp_length") ++ ", amp: ".toList ++ fmt (k.par "gp_amp") ++ ", per: ".toList ++ fmt (k.par "gp_per")
  | .quasiPer =>
    "QuasiPer Kernel with amp: ".toList ++ fmt (k.par "gp_amp") ++ ", per length: ".toList ++ fmt (k.par "gp_perlength") ++ ", per: ".toList ++ fmt (k.par "gp_per") ++
      ", exp length: ".toList ++ fmt (k.par "gp_explength")

/-- `repr` of a `CeleriteKernel` with these hyperparameters, /repo/radvel/gp.py 441-451. -/
def celeriteRepr (fmt : ℝ → Text) (B C L Prot : ℝ) : Text :=
  "Celerite Kernel with B = ".toList ++ fmt B ++ ", C = ".toList ++ fmt C ++ ", L = ".toList ++ fmt L ++ ", Prot = ".toList ++ fmt Prot ++ ".".toList

end Radvel
