import Verif.Model.RoundSigLog
import Verif.Props.Numbers
import Verif.Props.RoundedDate
import Verif.Props.RoundedFastBin

/-!
# Significant figures with a computed logarithm (C194)
-/

namespace Radvel
open Real

theorem pyRound_neg (x : ℝ) (d : ℤ) : pyRound (-x) d = -pyRound x d := by
  unfold pyRound
  rw [neg_mul, roundEven_neg]
  push_cast
  ring

theorem roundEven_near {x : ℝ} {z : ℤ} (h : |x - z| < 1 / 2) : roundEven x = z := by
  have h1 := roundEven_dist x
  have h2 : |((roundEven x - z : ℤ) : ℝ)| < 1 := by
    have := abs_sub_le (roundEven x : ℝ) x z
    push_cast
    linarith
  have h3 : |roundEven x - z| < 1 := by exact_mod_cast h2
  have := Int.abs_lt_one_iff.1 h3
  omega

/-- Near a power of ten all numbers of digits give this power. -/
theorem pyRound_power (y : ℝ) (hy : 0 < y) (m d : ℤ) (h : |logb 10 y - m| ≤ 1e-13) (h0 : 0 ≤ m + d) (h1 : m + d ≤ 11) : pyRound y d = 10 ^ m := by
  have l10 : 0 < log 10 := log_pos (by norm_num)
  have l9 : log 10 ≤ 9 := (log_le_sub_one_of_pos (by norm_num)).trans (by norm_num)
  set u := log y - m * log 10 with hu
  have hu' : |u| ≤ 9e-13 := by
    have : u = (logb 10 y - m) * log 10 := by rw [logb, sub_mul, div_mul_cancel₀ _ l10.ne']
    rw [this, abs_mul, abs_of_pos l10]
    calc |logb 10 y - m| * log 10 ≤ 1e-13 * 9 := by gcongr
      _ = 9e-13 := by norm_num
  have hy' : y = 10 ^ m * exp u := by
    rw [hu, exp_sub, exp_log hy, mul_comm (m : ℝ), exp_mul, exp_log (by norm_num), rpow_intCast]
    field_simp
  have he : |exp u - 1| ≤ 1.8e-12 := (abs_exp_sub_one_le (hu'.trans (by norm_num))).trans (by linarith)
  obtain ⟨k, hk⟩ := Int.eq_ofNat_of_zero_le h0
  have hk' : k ≤ 11 := by omega
  have p : (10 : ℝ) ^ m * 10 ^ d = 10 ^ k := by rw [← zpow_add₀ (by norm_num), hk, zpow_natCast]
  have hr : roundEven (y * 10 ^ d) = 10 ^ k := by
    refine roundEven_near ?_
    have : y * 10 ^ d - ((10 ^ k : ℤ) : ℝ) = 10 ^ k * (exp u - 1) := by
      push_cast
      rw [hy', ← p]
      ring
    rw [this, abs_mul, abs_of_pos (by positivity)]
    have q : (10 : ℝ) ^ k ≤ 10 ^ 11 := pow_le_pow_right₀ (by norm_num) hk'
    calc (10 : ℝ) ^ k * |exp u - 1| ≤ 10 ^ 11 * 1.8e-12 := by gcongr
      _ < 1 / 2 := by norm_num
  unfold pyRound
  rw [hr]
  push_cast
  rw [← p, mul_div_assoc, div_self (by positivity), mul_one]

/-- C194: `round_sig` to 1 to 11 figures returns the same with every logarithm that is right to 1e-13 as with the exact one, although the number of decimals that it rounds to may differ. -/
theorem C194_same (lg : ℝ → ℝ) (x : ℝ) (hlg : |lg (|x|) - logb 10 (|x|)| ≤ 1e-13) (sig : ℤ) (h1 : 1 ≤ sig) (h2 : sig ≤ 11) : roundSigWith lg x sig = roundSig x sig := by
  by_cases hx : x = 0
  · simp [hx, roundSigWith, roundSig]
  have hpos : 0 < |x| := abs_pos.2 hx
  have key : pyRound |x| (sig - ⌊lg |x|⌋ - 1) = pyRound |x| (sig - ⌊logb 10 |x|⌋ - 1) := by
    have e := abs_le.1 hlg
    have f1 := Int.floor_le (lg |x|)
    have f2 := Int.lt_floor_add_one (lg |x|)
    have g1 := Int.floor_le (logb 10 |x|)
    have g2 := Int.lt_floor_add_one (logb 10 |x|)
    set a := ⌊lg |x|⌋
    set n := ⌊logb 10 |x|⌋
    have b1 : a < n + 2 := by
      have : (a : ℝ) < ((n + 2 : ℤ) : ℝ) := by push_cast; linarith
      exact_mod_cast this
    have b2 : n - 2 < a := by
      have : ((n - 2 : ℤ) : ℝ) < a := by push_cast; linarith
      exact_mod_cast this
    rcases (by omega : a = n ∨ a = n + 1 ∨ a = n - 1) with h | h | h
    · rw [h]
    · have c : |logb 10 |x| - ((n + 1 : ℤ) : ℝ)| ≤ 1e-13 := by
        rw [h] at f1
        push_cast at f1 ⊢
        rw [abs_le]
        constructor <;> linarith
      rw [pyRound_power _ hpos (n + 1) _ c (by omega) (by omega), pyRound_power _ hpos (n + 1) _ c (by omega) (by omega)]
    · have c : |logb 10 |x| - (n : ℝ)| ≤ 1e-13 := by
        rw [h] at f2
        push_cast at f2
        rw [abs_le]
        constructor <;> linarith
      rw [pyRound_power _ hpos n _ c (by omega) (by omega), pyRound_power _ hpos n _ c (by omega) (by omega)]
  unfold roundSigWith roundSig
  rw [if_neg hx, if_neg hx]
  rcases abs_cases x with ⟨h, _⟩ | ⟨h, _⟩
  · rw [h] at key ⊢
    exact key
  · have : ∀ d, pyRound x d = -pyRound |x| d := fun d => by rw [h, pyRound_neg, neg_neg]
    rw [this, this, key]

/-- C194: in particular with the rounded logarithm, for all numbers from 10⁻³²⁴ to 10³⁰⁹. -/
theorem C194_rounded (rnd : ℝ → ℝ) (h : RoundsToNearest rnd) (x : ℝ) (hl : (10 : ℝ) ^ (-324 : ℤ) ≤ |x|) (hu : |x| ≤ 10 ^ (309 : ℤ)) (sig : ℤ) (h1 : 1 ≤ sig) (h2 : sig ≤ 11) :
    roundSigWith (fun y => rnd (logb 10 y)) x sig = roundSig x sig := by
  have hpos : 0 < |x| := lt_of_lt_of_le (by positivity) hl
  refine C194_same _ x ?_ sig h1 h2
  have e := h.err (logb 10 |x|)
  rw [abs_sub_comm] at e
  have a : (-324 : ℝ) ≤ logb 10 |x| := by
    rw [le_logb_iff_rpow_le (by norm_num) hpos]
    exact_mod_cast hl
  have b : logb 10 |x| ≤ 309 := by
    rw [logb_le_iff_le_rpow (by norm_num) hpos]
    exact_mod_cast hu
  have c : |logb 10 (|x|)| ≤ 324 := abs_le.2 ⟨a, by linarith⟩
  refine e.trans ?_
  calc |logb 10 (|x|)| / 2 ^ 53 ≤ 324 / 2 ^ 53 := by gcongr
    _ ≤ 1e-13 := by norm_num

/-- C194: the number of decimals does differ: a logarithm just below a whole number may be rounded to it. -/
theorem C194_decimals (rnd : ℝ → ℝ) (h : RoundsToNearest rnd) : ∃ x : ℝ, 0 < x ∧ ⌊rnd (logb 10 x)⌋ ≠ ⌊logb 10 x⌋ := by
  refine ⟨10 ^ ((3 : ℝ) - 2 ^ (-54 : ℤ)), by positivity, ?_⟩
  rw [logb_rpow (by norm_num) (by norm_num)]
  have e : rnd (3 - 2 ^ (-54 : ℤ)) = 3 := by
    have := h.value (3 - 2 ^ (-54 : ℤ)) (3 * 2 ^ 51) (-51) (by norm_num) (by norm_num) (by norm_num [abs_lt])
    rw [this]
    norm_num
  have f : ⌊(3 : ℝ) - 2 ^ (-54 : ℤ)⌋ = 2 := by
    rw [Int.floor_eq_iff]
    norm_num
  rw [e, f]
  norm_num

/-- The hypotheses of `C194_rounded` are met by the number of `C194_decimals`, about 1000. -/
example : (∃ rnd, RoundsToNearest rnd) ∧ (10 : ℝ) ^ (-324 : ℤ) ≤ |999.9999| ∧ |(999.9999 : ℝ)| ≤ 10 ^ (309 : ℤ) := by
  refine ⟨exists_rounding, ?_, ?_⟩ <;> rw [abs_of_pos (by norm_num)]
  · exact (zpow_le_zpow_right₀ (by norm_num) (by norm_num : (-324 : ℤ) ≤ 0)).trans (by norm_num)
  · exact le_trans (by norm_num) (zpow_le_zpow_right₀ (by norm_num) (by norm_num : (3 : ℤ) ≤ 309))

end Radvel
