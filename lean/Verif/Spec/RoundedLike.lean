import Verif.Model.RoundedLike
import Verif.Spec.Rounding
import Mathlib.Probability.Distributions.Gaussian.Real

/-!
# Rounded sums and likelihoods (specification side of C174)
-/

namespace Radvel

/-- `s` is obtained by adding the numbers of `l` in some order and with some brackets, each number passing through at most `n` additions. -/
inductive IsSum (A : Ops) : Nat → List ℝ → ℝ → Prop
  | nil : IsSum A 0 [] 0
  | one (x : ℝ) : IsSum A 0 [x] x
  | add {n m : Nat} {l k : List ℝ} {a b : ℝ} : IsSum A n l a → IsSum A m k b → IsSum A (max n m + 1) (l ++ k) (A.add a b)
  | perm {n : Nat} {l k : List ℝ} {a : ℝ} : l.Perm k → IsSum A n l a → IsSum A n k a

/-- Double precision for likelihoods: the logarithm is correct to four units in the last place; sums are taken in any order. -/
structure IsLikeDouble (O : LikeOps) : Prop where
  ops : IsDouble O.toOps
  log : ∀ a, 0 < a → |O.log a - Real.log a| ≤ libErr * |Real.log a|
  sum : ∀ l : List ℝ, ∃ n ≤ l.length, IsSum O.toOps n l (O.sum l)

/-- A measurement with the exact velocity and a bound for the error of the computed one. -/
structure Truth where
  point : RPoint
  vel : ℝ
  eps : ℝ

/-- The logarithm of the normal density of a measurement. -/
noncomputable def Truth.logDensity (gamma jit : ℝ) (x : Truth) : ℝ :=
  Real.log (ProbabilityTheory.gaussianPDFReal (x.vel + gamma) (x.point.err ^ 2 + jit ^ 2).toNNReal x.point.y)

/-- The variance of a measurement. -/
def Truth.var (jit : ℝ) (x : Truth) : ℝ := x.point.err ^ 2 + jit ^ 2

/-- The exact residual. -/
def Truth.res (gamma : ℝ) (x : Truth) : ℝ := x.point.y - gamma - x.vel

/-- The error of the computed residual: that of the velocity, and rounding. -/
noncomputable def Truth.resErr (gamma : ℝ) (x : Truth) : ℝ := x.eps + 3.4e-16 * (|x.point.y - gamma| + |x.vel| + x.eps)

end Radvel
