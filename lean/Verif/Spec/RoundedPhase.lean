import Mathlib.Data.Real.Basic
import Mathlib.Algebra.Order.Archimedean.Basic

/-! Rounding to the nearest floating-point number. -/

namespace Radvel

/-- The numbers with 53 binary digits, of any size. -/
def IsBinary (x : ℝ) : Prop := ∃ m e : ℤ, |m| ≤ 2 ^ 53 ∧ x = m * 2 ^ e

/-- Rounding to a nearest number with 53 binary digits, whichever it is if there are two. -/
structure RoundsToNearest (rnd : ℝ → ℝ) : Prop where
  binary : ∀ x, IsBinary (rnd x)
  nearest : ∀ x y, IsBinary y → |x - rnd x| ≤ |x - y|

/-- A multiple of `2 ^ e`: for instance, all numbers with 53 binary digits that are at least `2 ^ (e + 52)` (`IsBinary.onGrid`). -/
def OnGrid (e : ℤ) (x : ℝ) : Prop := ∃ n : ℤ, x = n * 2 ^ e

end Radvel
