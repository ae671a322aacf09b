import Verif.Spec.Chains
import Verif.Spec.Built

/-! Specification vocabulary for what is reported after sampling (C128 and following). -/

namespace Radvel

/-- `v` is the quantile `q` of the numbers in a column, cells without a number left out: with the `L` numbers in increasing order and counted from 0, it is the number at position `(L - 1) q`, interpolated linearly
between neighbours. -/
def ColQuantile {n : Nat} (col : Fin n → Option ℝ) (q v : ℝ) : Prop :=
  ∃ l : List ℝ, l.Perm ((List.ofFn col).filterMap id) ∧ l.Pairwise (· ≤ ·) ∧ ∃ (i : Nat) (t a : ℝ), 0 ≤ t ∧ t < 1 ∧ ((l.length : ℝ) - 1) * q = i + t ∧ l[i]? = some a ∧ v = a + t * (l.getD (i + 1) a - a)

/-- A column of samples as a column of a table. -/
def asCol {n : Nat} (col : Fin n → ℝ) : Fin n → Option ℝ := fun j => some (col j)

/-- The row of parameter `k` in the vector. -/
def RowOf {α : Type} (s : VState α) (k : Key) (r : Row α) : Prop := ∃ i, s.indices.get? k = some i ∧ s.rows[i]? = some r

end Radvel
