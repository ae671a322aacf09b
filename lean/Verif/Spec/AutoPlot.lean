import Verif.Model.AutoPlot

/-! Specification for the table and the plot of autocorrelation times. -/

namespace Radvel

/-- `lo`, `mean` and `hi` are the least, mean and greatest of the numbers `ts`, if these are finite; if one of them is nan, so are they. -/
def Summary (ts : List Fl) (lo mean hi : Fl) : Prop :=
  (Fl.nan ∈ ts → lo = .nan ∧ mean = .nan ∧ hi = .nan) ∧
  ∀ xs : List ℝ, ts = xs.map Fl.fin → ∃ a b, lo = .fin a ∧ hi = .fin b ∧ mean = .fin (xs.sum / xs.length) ∧ a ∈ xs ∧ b ∈ xs ∧ ∀ x ∈ xs, a ≤ x ∧ x ≤ b

/-- The point is inside the limits of the axes. -/
def InFrame (fig : AutoFig) (n : Nat) (y : ℝ) : Prop := (∀ a b, fig.xlim = some (a, b) → a ≤ n ∧ n ≤ b) ∧ fig.ylim.1 ≤ y ∧ y ≤ fig.ylim.2

end Radvel
