import Verif.Model.Rounded
import Mathlib.Analysis.SpecialFunctions.Trigonometric.Arctan

/-!
# What is assumed of double precision arithmetic

The standard model: the four operations are correct to half a unit in the last place, products and quotients up to underflow; the library functions are correct to four units in the last place.
-/

namespace Radvel

/-- Four units in the last place (of 8 units of rounding), the error allowed to library functions. -/
noncomputable def libErr : ℝ := 8 * unitRound

/-- Double precision: rounding errors of the operations; a quotient between 1 and 2 is a multiple of 2⁻⁵². -/
structure IsDouble (A : Ops) : Prop where
  add : ∀ a b, |A.add a b - (a + b)| ≤ unitRound * |a + b|
  sub : ∀ a b, |A.sub a b - (a - b)| ≤ unitRound * |a - b|
  mul : ∀ a b, |A.mul a b - a * b| ≤ unitRound * |a * b| + tiny
  div : ∀ a b, b ≠ 0 → |A.div a b - a / b| ≤ unitRound * |a / b| + tiny
  sqrt : ∀ a, 0 ≤ a → |A.sqrt a - √a| ≤ libErr * √a
  sin : ∀ a, |A.sin a - Real.sin a| ≤ libErr
  cos : ∀ a, |A.cos a - Real.cos a| ≤ libErr
  tan : ∀ a, Real.cos a ≠ 0 → |A.tan a - Real.tan a| ≤ libErr * |Real.tan a| + tiny
  arctan : ∀ a, |A.arctan a - Real.arctan a| ≤ 2 * libErr
  lit : ∀ a, |A.lit a - a| ≤ unitRound * |a|
  grid : ∀ a b, 1 ≤ |A.div a b| → |A.div a b| ≤ 2 → ∃ n : ℤ, A.div a b = n / 2 ^ 52

end Radvel
