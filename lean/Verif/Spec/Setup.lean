import Verif.Model.Setup
import Verif.Spec.Built

/-! What a setup file must provide (specification side of C117-C121). -/

namespace Radvel

/-- The distinct instruments in the order of their first mention. -/
def firsts : List String → List String
  | [] => []
  | a :: t => a :: (firsts t).filter (· ≠ a)

/-- The hyperparameters named for a kernel are the right ones: for a covariance matrix as many different names as the kernel has hyperparameters, each of these found by
the beginning of a name (`gp_per` must not be read from a name that contains `length`); for celerite, each of the four found. -/
def HnamesFit (hn : List Key) : KernelName → Prop
  | .matrix kind => hn.Nodup ∧ hn.length = kind.slots.length ∧
      ∀ slot ∈ kind.slots, ∃ k ∈ hn, slot <+: k.render ∧ (kind = .quasiPer → slot = "gp_per".toList → ¬ "length".toList <:+: k.render)
  | .celerite => ∀ slot ∈ ["gp_B".toList, "gp_C".toList, "gp_L".toList, "gp_Prot".toList], ∃ k ∈ hn, slot <+: k.render
  | .unknown => False

/-- What an instrument needs: observations, `gamma` and `jit`, and, if the setup file defines GP hyperparameters at all, its own ones, declared and right for the kernel. -/
structure InstReady (P : SetupFile) (inst : String) : Prop where
  data : ∃ r ∈ P.data, r.tel = inst
  gamma : Key.inst .gamma ("_" ++ inst) ∈ P.params.items.keys
  jit : Key.inst .jit ("_" ++ inst) ∈ P.params.items.keys
  gp : ∀ d, P.hnames = some d → ∃ hn, d.get? inst = some hn ∧ (∀ k ∈ hn, k ∈ P.params.items.keys) ∧
    ((P.kernelName = none ∧ HnamesFit hn (.matrix .quasiPer)) ∨ ∃ e kn, P.kernelName = some e ∧ e.get? inst = some kn ∧ HnamesFit hn kn)

/-- What a setup file needs besides: parameters in the basis that is fitted, no `logjit`, and, for the option `--decorr`, the variables and their columns. -/
structure SetupReady (P : SetupFile) (option : Bool) : Prop where
  user : UserParams P.params
  basis : P.params.basis = P.fittingBasis
  nologjit : ∀ r, Key.inst .logjit r ∉ P.params.items.keys
  decorr : option = true → ∃ vs, P.decorrVars = some vs ∧ ∀ v ∈ vs, v ∈ P.columns

end Radvel
