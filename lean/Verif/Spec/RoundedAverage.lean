import Mathlib.Data.Real.Basic

/-! Rounded sums in any order. -/

namespace Radvel

/-- `s` is obtained by adding the numbers of `l` in some order and with some brackets, each sum being rounded and each number passing through at most `n` additions. -/
inductive RoundedSum (rnd : ℝ → ℝ) : Nat → List ℝ → ℝ → Prop
  | nil : RoundedSum rnd 0 [] 0
  | one (x : ℝ) : RoundedSum rnd 0 [x] x
  | add {n m : Nat} {l k : List ℝ} {a b : ℝ} : RoundedSum rnd n l a → RoundedSum rnd m k b → RoundedSum rnd (max n m + 1) (l ++ k) (rnd (a + b))
  | perm {n : Nat} {l k : List ℝ} {a : ℝ} : l.Perm k → RoundedSum rnd n l a → RoundedSum rnd n k a

/-- `np.sum`: any order of additions. -/
def SumsRounded (rnd : ℝ → ℝ) (sum : List ℝ → ℝ) : Prop := ∀ l, ∃ n ≤ l.length, RoundedSum rnd n l (sum l)

end Radvel
