import Mathlib.Analysis.Real.Pi.Bounds
import Mathlib.Analysis.SpecialFunctions.Trigonometric.Bounds
import Verif.Spec.Rounding
import Verif.Props.Kepler
import Verif.Lemmas.Orbit

/-! Rounding errors, step by step. -/

namespace Radvel
open Real

theorem unit_pos : 0 < unitRound := by unfold unitRound; positivity
theorem unit_le : unitRound ≤ 1.1103e-16 := by unfold unitRound; norm_num
theorem tiny_pos : 0 < tiny := by unfold tiny; positivity
theorem tiny_le : tiny ≤ 1e-30 := by
  unfold tiny
  rw [div_le_iff₀ (by positivity)]
  have : (2 : ℝ) ^ 100 ≤ 2 ^ 1075 := pow_le_pow_right₀ (by norm_num) (by norm_num)
  have h2 : (1 : ℝ) ≤ 1e-30 * 2 ^ 100 := by norm_num
  exact h2.trans (mul_le_mul_of_nonneg_left this (by norm_num))
theorem tiny_le' : tiny ≤ 1e-40 := by
  unfold tiny
  rw [div_le_iff₀ (by positivity)]
  have : (2 : ℝ) ^ 140 ≤ 2 ^ 1075 := pow_le_pow_right₀ (by norm_num) (by norm_num)
  have h2 : (1 : ℝ) ≤ 1e-40 * 2 ^ 140 := by norm_num
  exact h2.trans (mul_le_mul_of_nonneg_left this (by norm_num))
theorem lib_pos : 0 < libErr := by unfold libErr; linarith [unit_pos]
theorem lib_le : libErr ≤ 8.9e-16 := by unfold libErr; linarith [unit_le]

theorem near_mul {a a' b b' α β P Q : ℝ} (ha : |a - a'| ≤ α) (hb : |b - b'| ≤ β) (hP : |a'| ≤ P) (hQ : |b| ≤ Q) : |a * b - a' * b'| ≤ α * Q + P * β := by
  have h : a * b - a' * b' = (a - a') * b + a' * (b - b') := by ring
  rw [h]
  refine (abs_add_le _ _).trans ?_
  rw [abs_mul, abs_mul]
  exact add_le_add (mul_le_mul ha hQ (abs_nonneg _) ((abs_nonneg _).trans ha)) (mul_le_mul hP hb (abs_nonneg _) ((abs_nonneg _).trans hP))

theorem abs_of_near {a b α P : ℝ} (h : |a - b| ≤ α) (hb : |b| ≤ P) : |a| ≤ P + α := by
  have := abs_sub_abs_le_abs_sub a b
  linarith

theorem abs_mul_le {a b P Q : ℝ} (ha : |a| ≤ P) (hb : |b| ≤ Q) : |a * b| ≤ P * Q := by
  rw [abs_mul]
  exact mul_le_mul ha hb (abs_nonneg _) ((abs_nonneg _).trans ha)

theorem near_trans {a b c α β : ℝ} (h1 : |a - b| ≤ α) (h2 : |b - c| ≤ β) : |a - c| ≤ α + β := (abs_sub_le a b c).trans (add_le_add h1 h2)

theorem near_cos {a b α : ℝ} (h : |a - b| ≤ α) : |cos a - cos b| ≤ α := by
  have h1 : cos a - cos b = -2 * sin ((a + b) / 2) * sin ((a - b) / 2) := Real.cos_sub_cos a b
  have h2 : |sin ((a - b) / 2)| ≤ |(a - b) / 2| := Real.abs_sin_le_abs
  have h3 := Real.abs_sin_le_one ((a + b) / 2)
  rw [h1, abs_mul, abs_mul]
  have h4 : |(-2 : ℝ)| = 2 := by norm_num
  rw [h4]
  rw [abs_div, abs_two] at h2
  nlinarith [abs_nonneg (sin ((a - b) / 2)), abs_nonneg (sin ((a + b) / 2))]

theorem abs_arctan_le (z : ℝ) : |arctan z| ≤ |z| := by
  have key : ∀ y : ℝ, 0 ≤ y → arctan y ≤ y := by
    intro y hy
    have := Real.le_tan (Real.arctan_nonneg.2 hy) (Real.arctan_lt_pi_div_two y)
    rwa [Real.tan_arctan] at this
  rcases le_total 0 z with h | h
  · rw [abs_of_nonneg h, abs_of_nonneg (Real.arctan_nonneg.2 h)]
    exact key z h
  · have h1 := key (-z) (by linarith)
    rw [Real.arctan_neg] at h1
    have h2 : arctan z ≤ 0 := by
      have := Real.arctan_nonneg.2 (show 0 ≤ -z by linarith)
      rw [Real.arctan_neg] at this
      linarith
    rw [abs_of_nonpos h, abs_of_nonpos h2]
    exact h1

theorem arctan_diff {a b : ℝ} (h : 0 ≤ a * b) : |arctan a - arctan b| ≤ |a - b| / (1 + a * b) := by
  have h1 : arctan a - arctan b = arctan ((a - b) / (1 + a * b)) := by
    have := Real.arctan_add (x := a) (y := -b) (by linarith)
    rw [Real.arctan_neg] at this
    rw [sub_eq_add_neg, this]
    congr 1
    ring
  rw [h1]
  refine (abs_arctan_le _).trans ?_
  rw [abs_div, abs_of_pos (show (0 : ℝ) < 1 + a * b by linarith)]

theorem near_arctan_rel {a b ε : ℝ} (h : |a - b| ≤ ε * |b|) (h0 : 0 ≤ ε) (hε : ε ≤ 1 / 2) : |arctan a - arctan b| ≤ ε := by
  have h1 : b ^ 2 / 2 ≤ a * b := by
    have h2 : -(|a - b| * |b|) ≤ (a - b) * b := by rw [← abs_mul]; exact neg_abs_le _
    have h3 : |a - b| * |b| ≤ ε * |b| * |b| := mul_le_mul_of_nonneg_right h (abs_nonneg _)
    have h4 : |b| * |b| = b ^ 2 := by rw [← sq, sq_abs]
    nlinarith [sq_nonneg b]
  have h5 : 0 ≤ a * b := le_trans (by positivity) h1
  refine (arctan_diff h5).trans ?_
  rw [div_le_iff₀ (by linarith)]
  refine h.trans (mul_le_mul_of_nonneg_left ?_ h0)
  have h4 : |b| ^ 2 = b ^ 2 := sq_abs b
  nlinarith [sq_nonneg (|b| - 1)]

theorem arctan_lip (a b : ℝ) : |arctan a - arctan b| ≤ |a - b| := by
  rcases le_total 0 (a * b) with h | h
  · exact (arctan_diff h).trans (div_le_self (abs_nonneg _) (by linarith))
  · have h1 : |a - b| = |a| + |b| := by
      rcases le_total 0 a with ha | ha <;> rcases le_total 0 b with hb | hb
      · have : a * b = 0 := le_antisymm h (mul_nonneg ha hb)
        rcases mul_eq_zero.1 this with h | h <;> subst h <;> simp
      · rw [abs_of_nonneg ha, abs_of_nonpos hb, abs_of_nonneg (by linarith)]; ring
      · rw [abs_of_nonpos ha, abs_of_nonneg hb, abs_of_nonpos (by linarith)]; ring
      · have : a * b = 0 := le_antisymm h (mul_nonneg_of_nonpos_of_nonpos ha hb)
        rcases mul_eq_zero.1 this with h | h <;> subst h <;> simp
    rw [h1]
    exact (abs_sub _ _).trans (add_le_add (abs_arctan_le a) (abs_arctan_le b))

theorem near_arctan {a b ρ κ : ℝ} (h : |a - b| ≤ ρ * |b| + κ) (h0 : 0 ≤ ρ) (h1 : 0 ≤ κ) (h2 : ρ + κ ≤ 1 / 2) : |arctan a - arctan b| ≤ ρ + κ := by
  rcases le_total |b| 1 with hb | hb
  · refine (arctan_lip a b).trans (h.trans ?_)
    have := mul_le_mul_of_nonneg_left hb h0
    linarith
  · refine near_arctan_rel (h.trans ?_) (by linarith) h2
    have := mul_le_mul_of_nonneg_left hb h1
    linarith

/-! ### anomalies -/

variable {A : Ops}

theorem round_phase (hA : IsDouble A) (t tp per : ℝ) (hper : 0 < per) : |A.div (A.sub t tp) per - (t - tp) / per| ≤ 2.3e-16 * (|t - tp| / per) + 1e-30 := by
  have h1 := hA.sub t tp
  have h2 := hA.div (A.sub t tp) per hper.ne'
  have h3 : |A.sub t tp / per - (t - tp) / per| ≤ unitRound * (|t - tp| / per) := by
    rw [← sub_div, abs_div, abs_of_pos hper, ← mul_div_assoc]
    exact div_le_div_of_nonneg_right h1 hper.le
  have h4 : |(t - tp) / per| = |t - tp| / per := by rw [abs_div, abs_of_pos hper]
  have h5 := abs_of_near h3 h4.le
  have h6 := near_trans h2 h3
  have h7 : 0 ≤ |t - tp| / per := by positivity
  generalize |t - tp| / per = Q at *
  refine h6.trans ?_
  have := unit_le; have := unit_pos; have := tiny_le
  have h8 : unitRound * |A.sub t tp / per| ≤ unitRound * (Q + unitRound * Q) := mul_le_mul_of_nonneg_left h5 unit_pos.le
  have h9 : unitRound * (Q + unitRound * Q) = (unitRound + unitRound * unitRound) * Q := by ring
  have h10 : unitRound + unitRound * unitRound ≤ 1.15e-16 := by
    have := mul_le_mul unit_le unit_le unit_pos.le (by norm_num)
    have := unit_le
    norm_num at *; linarith
  have h11 := mul_le_mul_of_nonneg_right h10 h7
  have h12 : unitRound * Q ≤ 1.1103e-16 * Q := mul_le_mul_of_nonneg_right unit_le h7
  norm_num at *
  linarith

theorem round_mean (hA : IsDouble A) (t tp per : ℝ) :
    |A.meanAnomaly t tp per - 2 * π * (A.div (A.sub t tp) per - ⌊A.div (A.sub t tp) per⌋)| ≤ 3e-15 ∧ |A.meanAnomaly t tp per| ≤ 6.3 := by
  unfold Ops.meanAnomaly
  simp only
  generalize A.div (A.sub t tp) per = q
  have f1 : 0 ≤ q - ⌊q⌋ := by linarith [Int.floor_le q]
  have f2 : q - ⌊q⌋ ≤ 1 := by linarith [Int.lt_floor_add_one q]
  have hu := unit_le; have hp := unit_pos; have ht := tiny_le
  have p1 := Real.pi_gt_d6; have p2 := Real.pi_lt_d6
  have h1 := hA.sub q ⌊q⌋
  generalize (q - ⌊q⌋ : ℝ) = fr at *
  rw [abs_of_nonneg f1] at h1
  have h1' : |A.sub q ⌊q⌋ - fr| ≤ 1.12e-16 := h1.trans ((mul_le_mul hu f2 f1 (by norm_num)).trans (by norm_num))
  have h2 := hA.lit π
  rw [abs_of_pos Real.pi_pos] at h2
  have h2' : |A.lit π - π| ≤ 3.4883e-16 := h2.trans ((mul_le_mul hu p2.le Real.pi_pos.le (by norm_num)).trans (by norm_num))
  have h3 := hA.mul 2 (A.lit π)
  have b1 : |2 * A.lit π| ≤ 6.2832 := by
    have := abs_of_near h2' (abs_of_pos Real.pi_pos).le
    rw [abs_mul, abs_two]
    norm_num at *; linarith
  have h3' : |A.mul 2 (A.lit π) - 2 * A.lit π| ≤ 6.9764e-16 := h3.trans (by
    have := mul_le_mul hu b1 (abs_nonneg _) (by norm_num)
    norm_num at *; linarith)
  have h4 : |A.mul 2 (A.lit π) - 2 * π| ≤ 1.396e-15 := by
    have h5 : |2 * A.lit π - 2 * π| ≤ 6.9766e-16 := by
      rw [← mul_sub, abs_mul, abs_two]; norm_num at *; linarith
    refine (near_trans h3' h5).trans (by norm_num)
  have b2 : |2 * π| ≤ 6.28319 := by rw [abs_of_pos (by positivity)]; norm_num at *; linarith
  have b3 : |A.sub q ⌊q⌋| ≤ 1.0001 := by
    have := abs_of_near h1' (show |fr| ≤ 1 by rw [abs_of_nonneg f1]; exact f2)
    norm_num at *; linarith
  have h5 := near_mul h4 h1' b2 b3
  have b4 := abs_of_near h4 b2
  have h6 := hA.mul (A.mul 2 (A.lit π)) (A.sub q ⌊q⌋)
  have b5 := abs_mul_le b4 b3
  have h6' : |A.mul (A.mul 2 (A.lit π)) (A.sub q ⌊q⌋) - A.mul 2 (A.lit π) * A.sub q ⌊q⌋| ≤ 7e-16 := h6.trans (by
    have := mul_le_mul hu b5 (abs_nonneg _) (by norm_num)
    norm_num at *; linarith)
  have h7 := near_trans h6' h5
  refine ⟨h7.trans (by norm_num), ?_⟩
  have := abs_of_near h7 (abs_mul_le b2 (show |fr| ≤ 1 by rw [abs_of_nonneg f1]; exact f2))
  norm_num at *; linarith

theorem round_fi (hA : IsDouble A) (M e E : ℝ) (hM : |M| ≤ 6.3) (he : 0 ≤ e) (he1 : e ≤ 1) (h : |A.fi M e E| ≤ A.lit 1e-12) : |E - e * sin E - M| ≤ 1.01e-12 ∧ |E| ≤ 7.5 := by
  unfold Ops.fi at h
  have hu := unit_le; have hp := unit_pos; have ht := tiny_le; have hl := lib_le
  have h0 := hA.lit 1e-12
  have h0' : A.lit 1e-12 ≤ 1.0001e-12 := by
    have := (abs_le.1 h0).2
    rw [abs_of_pos (by norm_num)] at this
    norm_num at *; linarith
  have hs := (hA.sin E).trans hl
  have bs : |A.sin E| ≤ 1.0001 := by
    have := abs_of_near hs (Real.abs_sin_le_one E)
    norm_num at *; linarith
  have be : |e| ≤ 1 := by rw [abs_of_nonneg he]; exact he1
  have h1 := hA.mul e (A.sin E)
  have b1 := abs_mul_le be bs
  have h1' : |A.mul e (A.sin E) - e * A.sin E| ≤ 1.12e-16 := h1.trans (by
    have := mul_le_mul hu b1 (abs_nonneg _) (by norm_num)
    norm_num at *; linarith)
  have h2 : |e * A.sin E - e * sin E| ≤ 8.9e-16 := by
    rw [← mul_sub]
    exact (abs_mul_le be hs).trans (by norm_num)
  have h3 := near_trans h1' h2
  have b2 : |A.mul e (A.sin E)| ≤ 1.001 := by
    have := abs_of_near h1' b1
    norm_num at *; linarith
  have h4 := hA.sub E (A.mul e (A.sin E))
  have h5 := hA.sub (A.sub E (A.mul e (A.sin E))) M
  generalize A.mul e (A.sin E) = p at *
  generalize A.sub E p = y at *
  generalize A.sub y M = f at *
  -- `y` is near `M`
  have b3 : |y - M| ≤ 1.0002e-12 := by
    have h6 : |y - M| ≤ |f| + |f - (y - M)| := by
      have := abs_sub_abs_le_abs_sub (y - M) f
      rw [abs_sub_comm (y - M) f] at this
      linarith
    have h7 := mul_le_mul_of_nonneg_right hu (abs_nonneg (y - M))
    norm_num at *; linarith
  have b4 : |y| ≤ 6.31 := by
    have := abs_of_near b3 hM
    norm_num at *; linarith
  have b5 : |E - p| ≤ 6.32 := by
    have h6 : |E - p| ≤ |y| + |y - (E - p)| := by
      have := abs_sub_abs_le_abs_sub (E - p) y
      rw [abs_sub_comm (E - p) y] at this
      linarith
    have h7 := mul_le_mul_of_nonneg_right hu (abs_nonneg (E - p))
    norm_num at *; linarith
  have h6 : |y - (E - p)| ≤ 7.1e-16 := h4.trans (by
    have := mul_le_mul hu b5 (abs_nonneg _) (by norm_num)
    norm_num at *; linarith)
  constructor
  · have e1 : E - e * sin E - M = -(y - (E - p)) + (p - e * sin E) + (y - M) := by ring
    rw [e1]
    refine (abs_add_three _ _ _).trans ?_
    rw [abs_neg]
    norm_num at *; linarith
  · have e1 : E = (E - p) + p := by ring
    rw [e1]
    refine (abs_add_le _ _).trans ?_
    norm_num at *; linarith

/-! ### the tangent of half the anomaly -/

/-- No double is very near a pole of the tangent. -/
theorem cos_away (x : ℝ) (h : |x| ≤ 3.76) (hg : 1 ≤ |x| → |x| ≤ 2 → ∃ n : ℤ, x = n / 2 ^ 52) : 3e-17 ≤ |cos x| := by
  have p1 := Real.pi_gt_d20; have p2 := Real.pi_lt_d20
  have hc : cos x = -sin (|x| - π / 2) := by rw [Real.sin_sub_pi_div_two, neg_neg, Real.cos_abs]
  rw [hc, abs_neg]
  have key : ∀ y : ℝ, 6e-17 ≤ y → y ≤ 2.2 → 3e-17 ≤ sin y := by
    intro y h1 h2
    have j : ∀ z : ℝ, 0 ≤ z → z ≤ π / 2 → z / 2 ≤ sin z := by
      intro z hz hz'
      refine le_trans ?_ (Real.mul_le_sin hz hz')
      rw [div_mul_eq_mul_div, le_div_iff₀ Real.pi_pos]
      norm_num at p2
      nlinarith
    rcases le_total y (π / 2) with hy | hy
    · have := j y (le_trans (by norm_num) h1) hy
      norm_num at *; linarith
    · have := j (π - y) (by norm_num at *; linarith) (by linarith)
      rw [Real.sin_pi_sub] at this
      norm_num at *; linarith
  have far : 6e-17 ≤ |(|x| - π / 2)| := by
    by_cases h1 : 1 ≤ |x|
    · by_cases h2 : |x| ≤ 2
      · obtain ⟨n, rfl⟩ := hg h1 h2
        have hn : |(n : ℝ) / 2 ^ 52| = ((|n| : ℤ) : ℝ) / 2 ^ 52 := by rw [abs_div, Int.cast_abs]; norm_num
        rw [hn]
        rcases le_or_gt |n| 7074237752028440 with hb | hb
        · have : ((|n| : ℤ) : ℝ) ≤ 7074237752028440 := by exact_mod_cast hb
          rw [abs_of_nonpos (by norm_num at *; linarith)]
          norm_num at *; linarith
        · have : (7074237752028441 : ℝ) ≤ ((|n| : ℤ) : ℝ) := by exact_mod_cast hb
          rw [abs_of_nonneg (by norm_num at *; linarith)]
          norm_num at *; linarith
      · push Not at h2
        rw [abs_of_nonneg (by norm_num at *; linarith)]
        norm_num at *; linarith
    · push Not at h1
      rw [abs_of_nonpos (by norm_num at *; linarith)]
      norm_num at *; linarith
  have hy2 : |(|x| - π / 2)| ≤ 2.2 := by
    rw [abs_le]
    norm_num at p1 p2 h ⊢
    constructor <;> linarith [abs_nonneg x]
  have hk := key _ far hy2
  rcases abs_cases (|x| - π / 2) with ⟨h1, _⟩ | ⟨h1, _⟩
  · rw [h1] at hk
    exact hk.trans (le_abs_self _)
  · rw [h1, Real.sin_neg] at hk
    exact hk.trans (neg_le_abs _)

theorem round_sqrt (hA : IsDouble A) (e : ℝ) (he : 0 ≤ e) (he1 : e ≤ 0.9900001) :
    |A.sqrt (A.div (A.add 1 e) (A.sub 1 e)) - √((1 + e) / (1 - e))| ≤ 1.4e-15 * √((1 + e) / (1 - e)) := by
  have hu := unit_le; have hp := unit_pos; have ht := tiny_le; have hl := lib_le; have hlp := lib_pos
  have p : 0 < 1 - e := by norm_num at *; linarith
  have a1 := hA.add 1 e
  have a2 := hA.sub 1 e
  rw [abs_of_pos (show (0 : ℝ) < 1 + e by linarith)] at a1
  rw [abs_of_pos p] at a2
  have b1 := abs_le.1 a1
  have b2 := abs_le.1 a2
  have q0 : 1 ≤ (1 + e) / (1 - e) := by rw [le_div_iff₀ p]; linarith
  have m1 : unitRound * (1 - e) ≤ 1.1103e-16 * (1 - e) := mul_le_mul_of_nonneg_right hu p.le
  have m2 : unitRound * (1 + e) ≤ 1.1103e-16 * (1 + e) := mul_le_mul_of_nonneg_right hu (by linarith)
  have n2 : 0 < A.sub 1 e := by norm_num at *; linarith
  have d1 : |A.add 1 e / A.sub 1 e - (1 + e) / (1 - e)| ≤ 2.2207e-16 * ((1 + e) / (1 - e)) := by
    have e1 : A.add 1 e / A.sub 1 e - (1 + e) / (1 - e) = ((A.add 1 e - (1 + e)) * (1 - e) - (1 + e) * (A.sub 1 e - (1 - e))) / (A.sub 1 e * (1 - e)) := by
      field_simp; ring
    rw [e1, abs_div, abs_of_pos (mul_pos n2 p), div_le_iff₀ (mul_pos n2 p)]
    have e2 : 2.2207e-16 * ((1 + e) / (1 - e)) * (A.sub 1 e * (1 - e)) = 2.2207e-16 * (1 + e) * A.sub 1 e := by field_simp
    rw [e2]
    have e3 : |(A.add 1 e - (1 + e)) * (1 - e) - (1 + e) * (A.sub 1 e - (1 - e))| ≤ 1.1103e-16 * (1 + e) * (1 - e) + (1 + e) * (1.1103e-16 * (1 - e)) := by
      refine (abs_sub _ _).trans ?_
      rw [abs_mul, abs_mul, abs_of_pos p, abs_of_pos (show (0 : ℝ) < 1 + e by linarith)]
      exact add_le_add (mul_le_mul_of_nonneg_right (a1.trans m2) p.le) (mul_le_mul_of_nonneg_left (a2.trans m1) (by linarith))
    refine e3.trans ?_
    have e4 : (1 - e) * (1 - 1.1103e-16) ≤ A.sub 1 e := by norm_num at *; linarith
    have e5 := mul_le_mul_of_nonneg_left e4 (show (0 : ℝ) ≤ 2.2207e-16 * (1 + e) by positivity)
    refine le_trans ?_ e5
    have e6 : 0 ≤ (1 + e) * (1 - e) := mul_nonneg (by linarith) p.le
    have e7 : 1.1103e-16 * (1 + e) * (1 - e) + (1 + e) * (1.1103e-16 * (1 - e)) = 2.2206e-16 * ((1 + e) * (1 - e)) := by ring
    have e8 : 2.2207e-16 * (1 + e) * ((1 - e) * (1 - 1.1103e-16)) = 2.2207e-16 * (1 - 1.1103e-16) * ((1 + e) * (1 - e)) := by ring
    rw [e7, e8]
    exact mul_le_mul_of_nonneg_right (by norm_num) e6
  have d2 := hA.div (A.add 1 e) (A.sub 1 e) n2.ne'
  have d3 : |A.div (A.add 1 e) (A.sub 1 e) - (1 + e) / (1 - e)| ≤ 4e-16 * ((1 + e) / (1 - e)) := by
    generalize (1 + e) / (1 - e) = Q at *
    have hQ : |Q| = Q := abs_of_nonneg (by linarith)
    have h5 := abs_of_near d1 hQ.le
    have h6 := mul_le_mul hu h5 (abs_nonneg _) (by norm_num)
    have h7 := near_trans d2 d1
    norm_num at *; linarith
  generalize (1 + e) / (1 - e) = Q at *
  generalize A.div (A.add 1 e) (A.sub 1 e) = q at *
  have bq := abs_le.1 d3
  have qpos : 0 ≤ q := by norm_num at *; linarith
  have s0 : 1 ≤ √Q := by rw [show (1 : ℝ) = √1 by simp]; exact Real.sqrt_le_sqrt q0
  have s1 : |√q - √Q| ≤ 4e-16 * √Q := by
    have e1 : (√q - √Q) * (√q + √Q) = q - Q := by
      have h1 := Real.mul_self_sqrt qpos
      have h2 := Real.mul_self_sqrt (show 0 ≤ Q by linarith)
      linarith
    have e2 : |√q - √Q| * (√q + √Q) = |q - Q| := by
      rw [← e1, abs_mul, abs_of_pos (show 0 < √q + √Q by linarith [Real.sqrt_nonneg q])]
    have e3 : |√q - √Q| * √Q ≤ |q - Q| := by
      rw [← e2]
      exact mul_le_mul_of_nonneg_left (by linarith [Real.sqrt_nonneg q]) (abs_nonneg _)
    have e4 : 4e-16 * Q = 4e-16 * √Q * √Q := by rw [mul_assoc, Real.mul_self_sqrt (by linarith)]
    rw [e4] at d3
    exact le_of_mul_le_mul_right (e3.trans d3) (by linarith)
  have s2 := hA.sqrt q qpos
  have s3 := abs_of_near s1 (abs_of_nonneg (Real.sqrt_nonneg Q)).le
  rw [abs_of_nonneg (Real.sqrt_nonneg q)] at s3
  have s4 := mul_le_mul hl s3 (Real.sqrt_nonneg q) (by norm_num)
  have s5 := near_trans s2 s1
  generalize √Q = R at *
  norm_num at *; linarith

theorem root_le (e : ℝ) (he1 : e ≤ 0.9900001) : √((1 + e) / (1 - e)) ≤ 14.1069 := by
  have h0 : 0 < 1 - e := by norm_num at *; linarith
  rw [Real.sqrt_le_left (by norm_num), div_le_iff₀ h0]
  norm_num at *
  linarith

/-- The computed ratio against the exact one at the computed half anomaly. -/
theorem round_ratio (hA : IsDouble A) (e E : ℝ) (he : 0 ≤ e) (he1 : e ≤ 0.9900001) (hE : |E| ≤ 7.5) :
    |A.ratio e E - √((1 + e) / (1 - e)) * tan (A.div E 2)| ≤ 2.5e-15 * |√((1 + e) / (1 - e)) * tan (A.div E 2)| + 1e-28 ∧ cos (A.div E 2) ≠ 0 ∧ |2 * A.div E 2 - E| ≤ 1e-15 ∧ |A.ratio e E| ≤ 1e19 := by
  have hu := unit_le; have hp := unit_pos; have ht := tiny_le; have hl := lib_le; have hlp := lib_pos; have htp := tiny_pos
  have d := hA.div E 2 (by norm_num)
  have hE2 : |E / 2| ≤ 3.75 := by rw [abs_div, abs_two]; norm_num at *; linarith
  have d' : |A.div E 2 - E / 2| ≤ 5e-16 := by
    have := mul_le_mul hu hE2 (abs_nonneg _) (by norm_num)
    norm_num at *; linarith
  have hx : |A.div E 2| ≤ 3.76 := by
    have := abs_of_near d' hE2
    norm_num at *; linarith
  have hc := cos_away _ hx (hA.grid E 2)
  have hc0 : cos (A.div E 2) ≠ 0 := by
    intro h0
    rw [h0, abs_zero] at hc
    norm_num at hc
  have hT : |tan (A.div E 2)| ≤ 4e16 := by
    rw [Real.tan_eq_sin_div_cos, abs_div, div_le_iff₀ (abs_pos.2 hc0)]
    have := Real.abs_sin_le_one (A.div E 2)
    norm_num at *; linarith
  have htan := hA.tan _ hc0
  have hs := round_sqrt hA e he he1
  have hr := root_le e he1
  have hr0 := Real.sqrt_nonneg ((1 + e) / (1 - e))
  unfold Ops.ratio
  have hm := hA.mul (A.sqrt (A.div (A.add 1 e) (A.sub 1 e))) (A.tan (A.div E 2))
  have hdd : |2 * A.div E 2 - E| ≤ 1e-15 := by
    have : 2 * A.div E 2 - E = 2 * (A.div E 2 - E / 2) := by ring
    rw [this, abs_mul, abs_two]
    norm_num at *; linarith
  generalize A.sqrt (A.div (A.add 1 e) (A.sub 1 e)) = s at *
  generalize A.tan (A.div E 2) = tt at *
  generalize tan (A.div E 2) = T at *
  generalize √((1 + e) / (1 - e)) = r at *
  generalize A.mul s tt = m at *
  have hT0 := abs_nonneg T
  have htan' : |tt - T| ≤ 8.9e-16 * |T| + 1e-30 := by
    have := mul_le_mul_of_nonneg_right hl hT0
    linarith
  have btt := abs_of_near htan' (le_refl |T|)
  have br : |r| ≤ r := (abs_of_nonneg hr0).le
  have h1 := near_mul hs htan' br btt
  have bst := abs_of_near h1 (abs_mul_le br (le_refl |T|))
  have hrT : |r * T| = r * |T| := by rw [abs_mul, abs_of_nonneg hr0]
  have hw : 0 ≤ r * |T| := mul_nonneg hr0 hT0
  have hrw : r * |T| ≤ 14.1069 * 4e16 := mul_le_mul hr hT hT0 (by norm_num)
  rw [hrT]
  have h2 := mul_le_mul hu bst (abs_nonneg _) (by norm_num)
  have h3 := near_trans hm h1
  have h4 : 1.4e-15 * r * (|T| + (8.9e-16 * |T| + 1e-30)) + r * (8.9e-16 * |T| + 1e-30) = (1.4e-15 * (1 + 8.9e-16) + 8.9e-16) * (r * |T|) + (1.4e-15 * 1e-30 + 1e-30) * r := by ring
  rw [h4] at h2 h3
  generalize r * |T| = W at *
  have h5 : |m - r * T| ≤ 2.5e-15 * W + 1e-28 := by norm_num at *; linarith
  refine ⟨h5, hc0, hdd, ?_⟩
  have := abs_of_near h5 hrT.le
  norm_num at *; linarith

end Radvel
