import Verif.Spec.Calendar
import Mathlib.Data.Real.Basic

/-! # Years as numbers (specification side of C183) -/

namespace Radvel

/-- The Julian date at which the year begins: midnight before its first day. -/
noncomputable def newYear (y : ℤ) : ℝ := julianDay y 1 1 - 1 / 2

/-- The year with the part of it that has passed, Gregorian calendar. -/
def IsDecimalYear (Y : ℝ → ℝ) : Prop := ∀ (y : ℤ) (t : ℝ), newYear y ≤ t → t < newYear (y + 1) → Y t = y + (t - newYear y) / (newYear (y + 1) - newYear y)

/-- The number on an axis from `y0` to `y1` above the place `p` of an axis from `x0` to `x1`. -/
noncomputable def axisAbove (x0 x1 y0 y1 p : ℝ) : ℝ := y0 + (p - x0) / (x1 - x0) * (y1 - y0)

end Radvel
