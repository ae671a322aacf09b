import Verif.Model.NpRound
import Verif.Props.RoundSigLog

/-!
# Decimals in floating point (C195)
-/

namespace Radvel
open Real

/-- C195: the result is at most half a unit of the last decimal away, up to rounding errors. -/
theorem C195_near (rnd : ℝ → ℝ) (h : RoundsToNearest rnd) (x : ℝ) (d : ℤ) : |npRound rnd x d - x| ≤ 10 ^ (-d) / 2 * (1 + 1 / 2 ^ 53) + 3 * |x| / 2 ^ 53 := by
  have hT : (0 : ℝ) < 10 ^ d := by positivity
  unfold npRound
  rw [zpow_neg]
  set T : ℝ := 10 ^ d
  have e1 := h.err (x * T)
  have e2 := roundEven_dist (rnd (x * T))
  set z : ℝ := (roundEven (rnd (x * T)) : ℝ)
  have e3 := h.err (z / T)
  have q : |z / T - x| ≤ T⁻¹ / 2 + |x| / 2 ^ 53 := by
    have a : z / T - x = (z - x * T) / T := by field_simp
    have b : |z - x * T| ≤ 1 / 2 + |x| * T / 2 ^ 53 := by
      have t := abs_sub_le z (rnd (x * T)) (x * T)
      rw [abs_sub_comm (rnd (x * T))] at t
      rw [abs_mul, abs_of_pos hT] at e1
      linarith
    rw [a, abs_div, abs_of_pos hT, div_le_iff₀ hT]
    refine b.trans (le_of_eq ?_)
    field_simp
  have q' : |z / T| ≤ |x| + (T⁻¹ / 2 + |x| / 2 ^ 53) := by
    have := abs_sub_abs_le_abs_sub (z / T) x
    linarith
  have t := abs_sub_le (rnd (z / T)) (z / T) x
  rw [abs_sub_comm (rnd (z / T)) (z / T)] at t
  have s : |z / T| / 2 ^ 53 ≤ (|x| + (T⁻¹ / 2 + |x| / 2 ^ 53)) / 2 ^ 53 := by gcongr
  have x0 := abs_nonneg x
  have : |x| / 2 ^ 53 / 2 ^ 53 ≤ |x| / 2 ^ 53 := div_le_self (by positivity) (by norm_num)
  have r : (|x| + (T⁻¹ / 2 + |x| / 2 ^ 53)) / 2 ^ 53 = |x| / 2 ^ 53 + T⁻¹ / 2 * (1 / 2 ^ 53) + |x| / 2 ^ 53 / 2 ^ 53 := by ring
  have r2 : T⁻¹ / 2 * (1 + 1 / 2 ^ 53) + 3 * |x| / 2 ^ 53 = T⁻¹ / 2 + T⁻¹ / 2 * (1 / 2 ^ 53) + 3 * (|x| / 2 ^ 53) := by ring
  rw [r2]
  linarith

/-- C195: the floating-point number nearest to a decimal of up to 15 digits is kept by rounding to its decimals; so rounding twice is rounding once. -/
theorem C195_kept (rnd : ℝ → ℝ) (h : RoundsToNearest rnd) (z d : ℤ) (hz : |z| ≤ 2 ^ 50) : npRound rnd (rnd (z / 10 ^ d)) d = rnd (z / 10 ^ d) := by
  have hT : (0 : ℝ) < 10 ^ d := by positivity
  unfold npRound
  set T : ℝ := 10 ^ d
  have hz' : |(z : ℝ)| ≤ 2 ^ 50 := by exact_mod_cast hz
  have e1 := h.err (z / T)
  have e2 := h.err (rnd (z / T) * T)
  have a : |rnd (z / T) * T - z| ≤ |(z : ℝ)| / 2 ^ 53 := by
    have : rnd (z / T) * T - z = -((z / T - rnd (z / T)) * T) := by field_simp; ring
    rw [this, abs_neg, abs_mul, abs_of_pos hT]
    refine (mul_le_mul_of_nonneg_right e1 hT.le).trans (le_of_eq ?_)
    rw [abs_div, abs_of_pos hT]
    field_simp
  have b : |rnd (z / T) * T| ≤ 2 ^ 51 := by
    have := abs_sub_abs_le_abs_sub (rnd (z / T) * T) z
    have : |(z : ℝ)| / 2 ^ 53 ≤ 2 ^ 50 / 2 ^ 53 := by gcongr
    have : (2 : ℝ) ^ 50 + 2 ^ 50 / 2 ^ 53 ≤ 2 ^ 51 := by norm_num
    linarith
  have c : |rnd (rnd (z / T) * T) - z| < 1 / 2 := by
    have t := abs_sub_le (rnd (rnd (z / T) * T)) (rnd (z / T) * T) z
    rw [abs_sub_comm (rnd (rnd (z / T) * T)) (rnd (z / T) * T)] at t
    have b' : |rnd (z / T) * T| / 2 ^ 53 ≤ 2 ^ 51 / 2 ^ 53 := by gcongr
    have a' : |(z : ℝ)| / 2 ^ 53 ≤ 2 ^ 50 / 2 ^ 53 := by gcongr
    have : (2 : ℝ) ^ 51 / 2 ^ 53 + 2 ^ 50 / 2 ^ 53 < 1 / 2 := by norm_num
    linarith
  rw [roundEven_near c]

/-- Without rounding this is `pyRound`. -/
theorem npRound_exact (x : ℝ) (d : ℤ) : npRound id x d = pyRound x d := rfl

/-- C195 in full is false: 2.675, which as a floating-point number is nearer to 2.67 than to 2.68, becomes 2.68. -/
theorem C195_nearest_violated (rnd : ℝ → ℝ) (h : RoundsToNearest rnd) : npRound rnd (rnd 2.675) 2 = rnd 2.68 ∧ pyRound (rnd 2.675) 2 = 2.67 ∧ |rnd 2.675 - rnd 2.67| < |rnd 2.675 - rnd 2.68| := by
  have e1 : rnd 2.675 = ((6023564501608038 : ℤ) : ℝ) * 2 ^ (-51 : ℤ) := h.value _ _ _ (by norm_num) (by norm_num) (by norm_num [abs_lt])
  have e2 : rnd 2.68 = ((6034823500676465 : ℤ) : ℝ) * 2 ^ (-51 : ℤ) := h.value _ _ _ (by norm_num) (by norm_num) (by norm_num [abs_lt])
  have e3 : rnd 2.67 = ((6012305502539612 : ℤ) : ℝ) * 2 ^ (-51 : ℤ) := h.value _ _ _ (by norm_num) (by norm_num) (by norm_num [abs_lt])
  have e4 : rnd (rnd 2.675 * 10 ^ (2 : ℤ)) = ((267 * 2 ^ 44 + 2 ^ 43 : ℤ) : ℝ) * 2 ^ (-44 : ℤ) := h.value _ _ _ (by norm_num) (by norm_num) (by rw [e1]; norm_num [abs_lt])
  refine ⟨?_, ?_, ?_⟩
  · have r : roundEven (((267 * 2 ^ 44 + 2 ^ 43 : ℤ) : ℝ) * 2 ^ (-44 : ℤ)) = 268 := by
      have f : ((267 * 2 ^ 44 + 2 ^ 43 : ℤ) : ℝ) * 2 ^ (-44 : ℤ) = 267 + 1 / 2 := by norm_num
      have g : ⌊(267 + 1 / 2 : ℝ)⌋ = 267 := by rw [Int.floor_eq_iff]; norm_num
      rw [f]
      unfold roundEven
      norm_num [g]
    unfold npRound
    rw [e4, r]
    norm_num
  · have r : roundEven (rnd 2.675 * 10 ^ (2 : ℤ)) = 267 := by
      refine roundEven_near ?_
      rw [e1]
      norm_num [abs_lt]
    unfold pyRound
    rw [r]
    norm_num
  · rw [e1, e2, e3]
    norm_num [abs_of_pos, abs_of_neg]

example : ∃ rnd, RoundsToNearest rnd := exists_rounding

end Radvel
