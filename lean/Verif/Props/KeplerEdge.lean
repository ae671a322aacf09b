import Mathlib.Topology.Order.IntermediateValue
import Verif.Props.KeplerEnd

/-! # C167: the C solver for eccentricities near 1 -/

namespace Radvel
open Real


/-- The first denominator of the first correction of the C solver, which starts at the mean anomaly, /repo/src/kepler.c 38-44. -/
noncomputable def cDen1 (e M : ℝ) : ℝ := (1 - e * cos M) + (e * sin M) ^ 2 / (2 * (1 - e * cos M))

/-- The second one, after the trial step. -/
noncomputable def cDen2 (e M : ℝ) : ℝ := (1 - e * cos M) + (e * sin M) ^ 2 / (2 * cDen1 e M) + (e * sin M / cDen1 e M) ^ 2 * (e * cos M) / 6

/-- Where the first correction leads. -/
noncomputable def cNext (e M : ℝ) : ℝ := M + e * sin M / cDen2 e M

theorem slope_pos {e : ℝ} (he : 0 ≤ e) (he1 : e < 1) (M : ℝ) : 0 < 1 - e * cos M := by nlinarith [cos_le_one M]

theorem cDen1_pos {e : ℝ} (he : 0 ≤ e) (he1 : e < 1) (M : ℝ) : 0 < cDen1 e M := by
  have := slope_pos he he1 M
  unfold cDen1
  positivity

theorem cDen2_pos {e : ℝ} (he : 0 ≤ e) (he1 : e < 1) (M : ℝ) : 1 - e ≤ cDen2 e M := by
  have hp := slope_pos he he1 M
  have h1 := cDen1_pos he he1 M
  have hc := mul_le_mul_of_nonneg_left (cos_le_one M) he
  have hc' := mul_le_mul_of_nonneg_left (neg_one_le_cos M) he
  have h2 : 0 ≤ (e * sin M) ^ 2 / (2 * cDen1 e M) := by positivity
  have h3 : (e * sin M / cDen1 e M) ^ 2 ≤ 1 / 2 := by
    rw [div_pow, div_le_iff₀ (by positivity)]
    have : cDen1 e M ^ 2 = (1 - e * cos M) ^ 2 + (e * sin M) ^ 2 + ((e * sin M) ^ 2 / (2 * (1 - e * cos M))) ^ 2 := by
      unfold cDen1; field_simp; ring
    rw [this]
    have a : 0 ≤ (1 - e * cos M - (e * sin M) ^ 2 / (2 * (1 - e * cos M))) ^ 2 := sq_nonneg _
    have b : (1 - e * cos M) * ((e * sin M) ^ 2 / (2 * (1 - e * cos M))) = (e * sin M) ^ 2 / 2 := by field_simp
    nlinarith
  unfold cDen2
  rcases le_total 0 (e * cos M) with h | h
  · have : 0 ≤ (e * sin M / cDen1 e M) ^ 2 * (e * cos M) := by positivity
    linarith
  · have : (e * sin M / cDen1 e M) ^ 2 * -(e * cos M) ≤ 1 / 2 * -(e * cos M) := mul_le_mul_of_nonneg_right h3 (by linarith)
    linarith

theorem danby_c {e : ℝ} (he : 0 ≤ e) (he1 : e < 1) (M : ℝ) : danby M e M = some (cNext e M) := by
  have hp := slope_pos he he1 M
  have h1 := cDen1_pos he he1 M
  have h2 : 0 < cDen2 e M := lt_of_lt_of_le (by linarith) (cDen2_pos he he1 M)
  have hf : keplerFi M e M = -(e * sin M) := by unfold keplerFi; ring
  have hD1 : den1 (keplerFi M e M) (1 - e * cos M) (e * sin M) = cDen1 e M := by rw [den1_eq, hf]; unfold cDen1; ring
  have hD2 : den2 (keplerFi M e M) (1 - e * cos M) (e * sin M) (e * cos M) = cDen2 e M := by rw [den2_eq, hD1, hf]; unfold cDen2; ring
  rw [danby_eq M e M hp (by rw [hD1]; exact h1) (by rw [hD2]; exact h2), hD2, hf, neg_neg]
  rfl

theorem cNext_continuous {e : ℝ} (he : 0 ≤ e) (he1 : e < 1) : Continuous (cNext e) := by
  have hp := fun M => (slope_pos he he1 M).ne'
  have h1 := fun M => (cDen1_pos he he1 M).ne'
  have h2 : ∀ M, cDen2 e M ≠ 0 := fun M => (lt_of_lt_of_le (by linarith : 0 < 1 - e) (cDen2_pos he he1 M)).ne'
  have c1 : Continuous (cDen1 e) := by
    unfold cDen1
    exact (by fun_prop : Continuous fun M => 1 - e * cos M).add ((by fun_prop : Continuous fun M => (e * sin M) ^ 2).div₀ (by fun_prop) fun M => mul_ne_zero two_ne_zero (hp M))
  have c2 : Continuous (cDen2 e) := by
    unfold cDen2
    refine ((by fun_prop : Continuous fun M => 1 - e * cos M).add ((by fun_prop : Continuous fun M => (e * sin M) ^ 2).div₀ (by fun_prop) fun M => mul_ne_zero two_ne_zero (h1 M))).add ?_
    refine Continuous.div_const (Continuous.mul (Continuous.pow ?_ 2) (by fun_prop)) 6
    exact (by fun_prop : Continuous fun M => e * sin M).div₀ c1 h1
  unfold cNext
  exact continuous_id.add ((by fun_prop : Continuous fun M => e * sin M).div₀ c2 h2)

/-- A state from which the loop does not reach a number. -/
theorem cLoop_stuck (M e E : ℝ) (hu : unconverged M e (some E) = true) (hd : danby M e E = none ∨ danby M e E = some E) (n : Nat) : ∀ fuel count, count + n = 29 → n + 2 ≤ fuel → ∀ x, cLoop 30 M e fuel count (some E) ≠ .value (some x) := by
  induction n with
  | zero =>
    intro fuel count hc hf x
    obtain ⟨m, rfl⟩ : ∃ m, fuel = m + 1 := ⟨fuel - 1, by omega⟩
    unfold cLoop
    rw [if_pos (by simp [hu]; omega)]
    simp only
    rw [if_pos (by omega)]
    exact nofun
  | succ n ih =>
    intro fuel count hc hf x
    obtain ⟨m, rfl⟩ : ∃ m, fuel = m + 1 := ⟨fuel - 1, by omega⟩
    unfold cLoop
    rw [if_pos (by simp [hu]; omega)]
    simp only [Option.bind_some]
    rw [if_neg (by omega)]
    rcases hd with hd | hd
    · rw [hd]
      obtain ⟨k, rfl⟩ : ∃ k, m = k + 1 := ⟨m - 1, by omega⟩
      unfold cLoop
      rw [if_neg (by simp [unconverged])]
      exact nofun
    · rw [hd]
      exact ih m (count + 1) (by omega) (by omega) x

/-- C167 (C) does not hold near 1: for the eccentricity 0.9999 there is a mean anomaly between 0 and 0.01 for which the C solver does not return a number. The first guess is the mean anomaly, the sign of its sine having been
converted to an integer; the first correction overshoots by more than a turn, and on the way there the second one divides by zero. `rv_drive` replaces eccentricities above 0.99, so only direct callers are concerned. -/
theorem C167_c_violated : ∃ M e : ℝ, 0 < M ∧ M < π ∧ 0 ≤ e ∧ e < 1 ∧ ∀ E : ℝ, cKepler M e ≠ .value (some E) := by
  obtain ⟨e, he⟩ : ∃ e : ℝ, e = 9999 / 10000 := ⟨_, rfl⟩
  have e0 : 0 ≤ e := by rw [he]; norm_num
  have e1 : e < 1 := by rw [he]; norm_num
  have hpi := pi_gt_three
  have hpi2 : π < 315 / 100 := by have := pi_lt_d2; norm_num at this ⊢; linarith
  have hcont := cNext_continuous e0 e1
  have hzero : cNext e 0 = 0 := by unfold cNext; simp
  have hbig : 7 ≤ cNext e (1 / 100) := by
    have b1 := sin_ge_cube (1 / 100) (by norm_num)
    have b2 := one_sub_sq_div_two_le_cos (x := 1 / 100)
    obtain ⟨q, hq⟩ : ∃ q, q = e * sin (1 / 100) := ⟨_, rfl⟩
    obtain ⟨p, hp⟩ : ∃ p, p = 1 - e * cos (1 / 100) := ⟨_, rfl⟩
    have q1 : 99 / 10000 ≤ q := by
      have := mul_le_mul_of_nonneg_left b1 e0
      rw [hq]
      rw [he] at this ⊢
      norm_num at this ⊢
      linarith
    have p1 : p ≤ 151 / 1000000 := by
      have := mul_le_mul_of_nonneg_left b2 e0
      rw [hp]
      rw [he] at this ⊢
      norm_num at this ⊢
      linarith
    have p0 : 0 < p := by rw [hp]; exact slope_pos e0 e1 _
    have q0 : 0 < q := by linarith
    have hD : 0 < cDen1 e (1 / 100) := cDen1_pos e0 e1 _
    have hD1 : q ^ 2 / (2 * p) ≤ cDen1 e (1 / 100) := by unfold cDen1; rw [← hp, ← hq]; linarith
    have hi : q / cDen1 e (1 / 100) ≤ 2 * p / q := by
      rw [div_le_div_iff₀ hD q0]
      rw [div_le_iff₀ (by positivity)] at hD1
      linarith
    have hi0 : 0 ≤ q / cDen1 e (1 / 100) := by positivity
    have hi2 : 2 * p / q ≤ 31 / 1000 := by rw [div_le_iff₀ q0]; linarith
    have hr : e * cos (1 / 100) ≤ 1 := by linarith
    have hr0 : 0 ≤ e * cos (1 / 100) := by linarith
    have hD2 : cDen2 e (1 / 100) ≤ 1 / 2000 := by
      unfold cDen2
      rw [← hp, ← hq]
      have h1 : q ^ 2 / (2 * cDen1 e (1 / 100)) ≤ p := by
        have : q ^ 2 / (2 * cDen1 e (1 / 100)) = q / 2 * (q / cDen1 e (1 / 100)) := by field_simp
        rw [this]
        refine (mul_le_mul_of_nonneg_left hi (by linarith)).trans (le_of_eq ?_)
        field_simp
      have h2 : (q / cDen1 e (1 / 100)) ^ 2 * (e * cos (1 / 100)) ≤ (31 / 1000) ^ 2 * 1 := mul_le_mul (pow_le_pow_left₀ hi0 (hi.trans hi2) 2) hr hr0 (by norm_num)
      norm_num at h2 ⊢
      linarith
    have hD20 : 0 < cDen2 e (1 / 100) := lt_of_lt_of_le (by linarith) (cDen2_pos e0 e1 _)
    unfold cNext
    rw [← hq]
    have : 7 ≤ q / cDen2 e (1 / 100) := by rw [le_div_iff₀ hD20]; linarith
    linarith
  obtain ⟨m, hm, hm'⟩ := intermediate_value_Icc (by norm_num : (0 : ℝ) ≤ 1 / 100) hcont.continuousOn (show 2 * π ∈ Set.Icc (cNext e 0) (cNext e (1 / 100)) from ⟨by rw [hzero]; linarith, by linarith⟩)
  obtain ⟨m2, hm2, hm2'⟩ := intermediate_value_Icc (by norm_num : (0 : ℝ) ≤ 1 / 100) hcont.continuousOn (show 2 * π + 1 / 20 ∈ Set.Icc (cNext e 0) (cNext e (1 / 100)) from ⟨by rw [hzero]; linarith, by linarith⟩)
  obtain ⟨g, hg⟩ : ∃ g : ℝ → ℝ, g = fun M => 2 * (1 - e * cos (cNext e M)) ^ 2 - keplerFi M e (cNext e M) * (e * sin (cNext e M)) := ⟨_, rfl⟩
  have hgc : Continuous g := by
    rw [hg]
    unfold keplerFi
    fun_prop
  have g1 : 0 < g m := by
    rw [hg]
    simp only [hm', cos_two_pi, sin_two_pi]
    rw [he]; norm_num
  have g2 : g m2 < 0 := by
    rw [hg]
    simp only [hm2']
    unfold keplerFi
    rw [add_comm (2 * π), sin_add_two_pi, cos_add_two_pi]
    have a1 := sin_ge_cube (1 / 20) (by norm_num)
    have a2 := sin_le (by norm_num : (0 : ℝ) ≤ 1 / 20)
    have a3 := one_sub_sq_div_two_le_cos (x := 1 / 20)
    have a4 := hm2.2
    have a5 : e * (1 - (1 / 20) ^ 2 / 2) ≤ e * cos (1 / 20) := mul_le_mul_of_nonneg_left a3 e0
    have a6 : 4 / 100 ≤ e * sin (1 / 20) := by
      have := mul_le_mul_of_nonneg_left a1 e0
      rw [he] at this ⊢
      norm_num at this ⊢
      linarith
    have a7 : e * sin (1 / 20) ≤ 1 / 20 := by
      have := mul_le_mul_of_nonneg_left a2 e0
      rw [he] at this ⊢
      norm_num at this ⊢
      linarith
    have a8 : 1 - e * cos (1 / 20) ≤ 2 / 1000 := by
      rw [he] at a5 ⊢
      norm_num at a5 ⊢
      linarith
    have a9 := slope_pos e0 e1 (1 / 20)
    have a10 : (1 - e * cos (1 / 20)) ^ 2 ≤ (2 / 1000) ^ 2 := pow_le_pow_left₀ a9.le a8 2
    have a11 : 5 * (4 / 100) ≤ (1 / 20 + 2 * π - e * sin (1 / 20) - m2) * (e * sin (1 / 20)) := mul_le_mul (by linarith) a6 (by norm_num) (by linarith)
    linarith
  obtain ⟨M, hM, hM0⟩ := intermediate_value_uIcc (a := m) (b := m2) hgc.continuousOn (show (0 : ℝ) ∈ Set.uIcc (g m) (g m2) from Set.mem_uIcc.mpr (.inr ⟨g2.le, g1.le⟩))
  have hMI : M ∈ Set.Icc (0 : ℝ) (1 / 100) := Set.uIcc_subset_Icc hm hm2 hM
  rw [hg] at hM0
  simp only at hM0
  obtain ⟨x, hx⟩ : ∃ x, x = cNext e M := ⟨_, rfl⟩
  rw [← hx] at hM0
  have hp := slope_pos e0 e1 x
  have hp1 : 1 / 10000 ≤ 1 - e * cos x := by
    have := mul_le_mul_of_nonneg_left (cos_le_one x) e0
    rw [he] at this ⊢
    linarith
  have hp2 : (1 / 10000) ^ 2 ≤ (1 - e * cos x) ^ 2 := pow_le_pow_left₀ (by norm_num) hp1 2
  have hq1 : |e * sin x| ≤ 1 := by
    rw [abs_mul, abs_of_nonneg e0]
    exact mul_le_one₀ e1.le (abs_nonneg _) (abs_sin_le_one x)
  -- the residual after the first correction
  have hf1 : 1e-12 < |keplerFi M e x| := by
    have h1 : keplerFi M e x * (e * sin x) = 2 * (1 - e * cos x) ^ 2 := by linarith
    have h2 : 2 * (1 - e * cos x) ^ 2 ≤ |keplerFi M e x| * 1 := by
      rw [← h1]
      refine (le_abs_self _).trans ?_
      rw [abs_mul]
      exact mul_le_mul_of_nonneg_left hq1 (abs_nonneg _)
    norm_num at hp2 ⊢
    linarith
  -- the residual at the start
  have hs : sin M ≤ M := sin_le hMI.1
  have hs0 : 0 ≤ sin M := sin_nonneg_of_nonneg_of_le_pi hMI.1 (by linarith [hMI.2])
  have hs2 : M / 2 ≤ sin M := by
    have := sin_ge_cube M hMI.1
    have : M ^ 3 = M * M ^ 2 := by ring
    have := mul_le_mul_of_nonneg_left (pow_le_pow_left₀ hMI.1 hMI.2 2) hMI.1
    norm_num at this
    linarith
  have hf0 : 1e-12 < |keplerFi M e M| := by
    have hf : keplerFi M e M = -(e * sin M) := by unfold keplerFi; ring
    rw [hf, abs_neg, abs_of_nonneg (mul_nonneg e0 hs0)]
    by_contra h
    push Not at h
    have hD := cDen2_pos e0 e1 M
    have hD0 : 0 < cDen2 e M := lt_of_lt_of_le (by linarith) hD
    have hxM : x - M = e * sin M / cDen2 e M := by rw [hx]; unfold cNext; ring
    have hxM1 : x - M ≤ 1e-12 * 10000 := by
      rw [hxM, div_le_iff₀ hD0]
      have : 1 / 10000 ≤ cDen2 e M := by rw [he] at hD ⊢; linarith
      norm_num at h ⊢
      linarith
    have hxM0 : 0 ≤ x - M := by rw [hxM]; exact div_nonneg (mul_nonneg e0 hs0) hD0.le
    have hM1 : M ≤ 4e-12 := by
      rw [he] at h
      norm_num at h ⊢
      linarith
    have hx0 : 0 ≤ x := by linarith [hMI.1]
    have hx1 : x ≤ 2e-8 := by norm_num at hxM1 hM1 ⊢; linarith
    have hsx := sin_le hx0
    have hsx0 : 0 ≤ sin x := sin_nonneg_of_nonneg_of_le_pi hx0 (by norm_num at hx1; linarith)
    have hfx : keplerFi M e x ≤ x := by
      unfold keplerFi
      have := mul_nonneg e0 hsx0
      linarith [hMI.1]
    have hqx : e * sin x ≤ x := by
      have := mul_le_mul e1.le hsx hsx0 (by norm_num)
      linarith
    have : keplerFi M e x * (e * sin x) ≤ x * (e * sin x) := mul_le_mul_of_nonneg_right hfx (mul_nonneg e0 hsx0)
    have : x * (e * sin x) ≤ x * x := mul_le_mul_of_nonneg_left hqx hx0
    have : x * x ≤ 2e-8 * 2e-8 := mul_le_mul hx1 hx1 hx0 (by norm_num)
    norm_num at this hp2
    linarith
  have hMpos : 0 < M := by
    rcases eq_or_lt_of_le hMI.1 with h | h
    · rw [← h] at hf0
      unfold keplerFi at hf0
      norm_num at hf0
    · exact h
  refine ⟨M, e, hMpos, by linarith [hMI.2], e0, e1, ?_⟩
  have hguess : cGuess M e = M := by
    unfold cGuess cSign
    rw [if_neg (by linarith [hMI.2]), if_neg (by linarith)]
    ring
  have hstuck : danby M e x = none ∨ danby M e x = some x := by
    have hz : 1 - e * cos x + -keplerFi M e x / (1 - e * cos x) * (e * sin x) / 2 = 0 := by
      field_simp
      linarith
    unfold danby
    simp only [if_neg hp.ne', hz, if_true]
    split_ifs
    · exact .inr rfl
    · exact .inl rfl
  intro E
  unfold cKepler
  rw [hguess]
  unfold cLoop
  rw [if_pos (by simp [(unconverged_some M e M).mpr hf0])]
  simp only [Option.bind_some]
  rw [if_neg (by omega), danby_c e0 e1 M, ← hx]
  exact cLoop_stuck M e x ((unconverged_some M e x).mpr hf1) hstuck 28 30 1 (by omega) (by omega) E

end Radvel
