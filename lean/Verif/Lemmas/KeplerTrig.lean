import Verif.Lemmas.KeplerRight

/-! # Lemmas for C167: the sine and the cosine up to half a turn -/

namespace Radvel
open Real

theorem sin_ge_seven (x : ℝ) (hx : 0 ≤ x) : x - x ^ 3 / 6 + x ^ 5 / 120 - x ^ 7 / 5040 ≤ sin x := by
  have := nonneg_of_deriv (f := fun x => sin x - (x - x ^ 3 / 6 + x ^ 5 / 120 - x ^ 7 / 5040)) (f' := fun x => cos x - (1 - x ^ 2 / 2 + x ^ 4 / 24 - x ^ 6 / 720)) ?_ (by simp) ?_ x hx
  · linarith
  · intro x
    have h := ((hasDerivAt_sin x).sub ((((hasDerivAt_id x).sub ((hasDerivAt_pow 3 x).div_const 6)).add ((hasDerivAt_pow 5 x).div_const 120)).sub ((hasDerivAt_pow 7 x).div_const 5040)))
    refine h.congr_deriv ?_
    norm_num; ring
  · intro x hx
    have := cos_ge_six x hx
    linarith

theorem cos_le_eight (x : ℝ) (hx : 0 ≤ x) : cos x ≤ 1 - x ^ 2 / 2 + x ^ 4 / 24 - x ^ 6 / 720 + x ^ 8 / 40320 := by
  have := nonneg_of_deriv (f := fun x => 1 - x ^ 2 / 2 + x ^ 4 / 24 - x ^ 6 / 720 + x ^ 8 / 40320 - cos x) (f' := fun x => sin x - (x - x ^ 3 / 6 + x ^ 5 / 120 - x ^ 7 / 5040)) ?_ (by simp) ?_ x hx
  · linarith
  · intro x
    have h := ((((((hasDerivAt_const x (1 : ℝ)).sub ((hasDerivAt_pow 2 x).div_const 2)).add ((hasDerivAt_pow 4 x).div_const 24)).sub ((hasDerivAt_pow 6 x).div_const 720)).add ((hasDerivAt_pow 8 x).div_const 40320)).sub (hasDerivAt_cos x))
    refine h.congr_deriv ?_
    norm_num; ring
  · intro x hx
    have := sin_ge_seven x hx
    linarith

theorem sin_le_nine (x : ℝ) (hx : 0 ≤ x) : sin x ≤ x - x ^ 3 / 6 + x ^ 5 / 120 - x ^ 7 / 5040 + x ^ 9 / 362880 := by
  have := nonneg_of_deriv (f := fun x => x - x ^ 3 / 6 + x ^ 5 / 120 - x ^ 7 / 5040 + x ^ 9 / 362880 - sin x) (f' := fun x => 1 - x ^ 2 / 2 + x ^ 4 / 24 - x ^ 6 / 720 + x ^ 8 / 40320 - cos x) ?_ (by simp) ?_ x hx
  · linarith
  · intro x
    have h := ((((((hasDerivAt_id x).sub ((hasDerivAt_pow 3 x).div_const 6)).add ((hasDerivAt_pow 5 x).div_const 120)).sub ((hasDerivAt_pow 7 x).div_const 5040)).add ((hasDerivAt_pow 9 x).div_const 362880)).sub (hasDerivAt_sin x))
    refine h.congr_deriv ?_
    norm_num; ring
  · intro x hx
    have := cos_le_eight x hx
    linarith

theorem cos_ge_ten (x : ℝ) (hx : 0 ≤ x) : 1 - x ^ 2 / 2 + x ^ 4 / 24 - x ^ 6 / 720 + x ^ 8 / 40320 - x ^ 10 / 3628800 ≤ cos x := by
  have := nonneg_of_deriv (f := fun x => cos x - (1 - x ^ 2 / 2 + x ^ 4 / 24 - x ^ 6 / 720 + x ^ 8 / 40320 - x ^ 10 / 3628800)) (f' := fun x => x - x ^ 3 / 6 + x ^ 5 / 120 - x ^ 7 / 5040 + x ^ 9 / 362880 - sin x) ?_ (by simp) ?_ x hx
  · linarith
  · intro x
    have h := ((hasDerivAt_cos x).sub ((((((hasDerivAt_const x (1 : ℝ)).sub ((hasDerivAt_pow 2 x).div_const 2)).add ((hasDerivAt_pow 4 x).div_const 24)).sub ((hasDerivAt_pow 6 x).div_const 720)).add ((hasDerivAt_pow 8 x).div_const 40320)).sub ((hasDerivAt_pow 10 x).div_const 3628800)))
    refine h.congr_deriv ?_
    norm_num; ring
  · intro x hx
    have := sin_le_nine x hx
    linarith

theorem sin_ge_eleven (x : ℝ) (hx : 0 ≤ x) : x - x ^ 3 / 6 + x ^ 5 / 120 - x ^ 7 / 5040 + x ^ 9 / 362880 - x ^ 11 / 39916800 ≤ sin x := by
  have := nonneg_of_deriv (f := fun x => sin x - (x - x ^ 3 / 6 + x ^ 5 / 120 - x ^ 7 / 5040 + x ^ 9 / 362880 - x ^ 11 / 39916800)) (f' := fun x => cos x - (1 - x ^ 2 / 2 + x ^ 4 / 24 - x ^ 6 / 720 + x ^ 8 / 40320 - x ^ 10 / 3628800)) ?_ (by simp) ?_ x hx
  · linarith
  · intro x
    have h := ((hasDerivAt_sin x).sub ((((((hasDerivAt_id x).sub ((hasDerivAt_pow 3 x).div_const 6)).add ((hasDerivAt_pow 5 x).div_const 120)).sub ((hasDerivAt_pow 7 x).div_const 5040)).add ((hasDerivAt_pow 9 x).div_const 362880)).sub ((hasDerivAt_pow 11 x).div_const 39916800)))
    refine h.congr_deriv ?_
    norm_num; ring
  · intro x hx
    have := cos_ge_ten x hx
    linarith

theorem cos_le_twelve (x : ℝ) (hx : 0 ≤ x) : cos x ≤ 1 - x ^ 2 / 2 + x ^ 4 / 24 - x ^ 6 / 720 + x ^ 8 / 40320 - x ^ 10 / 3628800 + x ^ 12 / 479001600 := by
  have := nonneg_of_deriv (f := fun x => 1 - x ^ 2 / 2 + x ^ 4 / 24 - x ^ 6 / 720 + x ^ 8 / 40320 - x ^ 10 / 3628800 + x ^ 12 / 479001600 - cos x) (f' := fun x => sin x - (x - x ^ 3 / 6 + x ^ 5 / 120 - x ^ 7 / 5040 + x ^ 9 / 362880 - x ^ 11 / 39916800)) ?_ (by simp) ?_ x hx
  · linarith
  · intro x
    have h := ((((((((hasDerivAt_const x (1 : ℝ)).sub ((hasDerivAt_pow 2 x).div_const 2)).add ((hasDerivAt_pow 4 x).div_const 24)).sub ((hasDerivAt_pow 6 x).div_const 720)).add ((hasDerivAt_pow 8 x).div_const 40320)).sub ((hasDerivAt_pow 10 x).div_const 3628800)).add ((hasDerivAt_pow 12 x).div_const 479001600)).sub (hasDerivAt_cos x))
    refine h.congr_deriv ?_
    norm_num; ring
  · intro x hx
    have := sin_ge_eleven x hx
    linarith

theorem sin_le_thirteen (x : ℝ) (hx : 0 ≤ x) : sin x ≤ x - x ^ 3 / 6 + x ^ 5 / 120 - x ^ 7 / 5040 + x ^ 9 / 362880 - x ^ 11 / 39916800 + x ^ 13 / 6227020800 := by
  have := nonneg_of_deriv (f := fun x => x - x ^ 3 / 6 + x ^ 5 / 120 - x ^ 7 / 5040 + x ^ 9 / 362880 - x ^ 11 / 39916800 + x ^ 13 / 6227020800 - sin x) (f' := fun x => 1 - x ^ 2 / 2 + x ^ 4 / 24 - x ^ 6 / 720 + x ^ 8 / 40320 - x ^ 10 / 3628800 + x ^ 12 / 479001600 - cos x) ?_ (by simp) ?_ x hx
  · linarith
  · intro x
    have h := ((((((((hasDerivAt_id x).sub ((hasDerivAt_pow 3 x).div_const 6)).add ((hasDerivAt_pow 5 x).div_const 120)).sub ((hasDerivAt_pow 7 x).div_const 5040)).add ((hasDerivAt_pow 9 x).div_const 362880)).sub ((hasDerivAt_pow 11 x).div_const 39916800)).add ((hasDerivAt_pow 13 x).div_const 6227020800)).sub (hasDerivAt_sin x))
    refine h.congr_deriv ?_
    norm_num; ring
  · intro x hx
    have := cos_le_twelve x hx
    linarith

theorem cos_ge_fourteen (x : ℝ) (hx : 0 ≤ x) : 1 - x ^ 2 / 2 + x ^ 4 / 24 - x ^ 6 / 720 + x ^ 8 / 40320 - x ^ 10 / 3628800 + x ^ 12 / 479001600 - x ^ 14 / 87178291200 ≤ cos x := by
  have := nonneg_of_deriv (f := fun x => cos x - (1 - x ^ 2 / 2 + x ^ 4 / 24 - x ^ 6 / 720 + x ^ 8 / 40320 - x ^ 10 / 3628800 + x ^ 12 / 479001600 - x ^ 14 / 87178291200)) (f' := fun x => x - x ^ 3 / 6 + x ^ 5 / 120 - x ^ 7 / 5040 + x ^ 9 / 362880 - x ^ 11 / 39916800 + x ^ 13 / 6227020800 - sin x) ?_ (by simp) ?_ x hx
  · linarith
  · intro x
    have h := ((hasDerivAt_cos x).sub ((((((((hasDerivAt_const x (1 : ℝ)).sub ((hasDerivAt_pow 2 x).div_const 2)).add ((hasDerivAt_pow 4 x).div_const 24)).sub ((hasDerivAt_pow 6 x).div_const 720)).add ((hasDerivAt_pow 8 x).div_const 40320)).sub ((hasDerivAt_pow 10 x).div_const 3628800)).add ((hasDerivAt_pow 12 x).div_const 479001600)).sub ((hasDerivAt_pow 14 x).div_const 87178291200)))
    refine h.congr_deriv ?_
    norm_num; ring
  · intro x hx
    have := sin_le_thirteen x hx
    linarith

theorem sin_ge_fifteen (x : ℝ) (hx : 0 ≤ x) : x - x ^ 3 / 6 + x ^ 5 / 120 - x ^ 7 / 5040 + x ^ 9 / 362880 - x ^ 11 / 39916800 + x ^ 13 / 6227020800 - x ^ 15 / 1307674368000 ≤ sin x := by
  have := nonneg_of_deriv (f := fun x => sin x - (x - x ^ 3 / 6 + x ^ 5 / 120 - x ^ 7 / 5040 + x ^ 9 / 362880 - x ^ 11 / 39916800 + x ^ 13 / 6227020800 - x ^ 15 / 1307674368000)) (f' := fun x => cos x - (1 - x ^ 2 / 2 + x ^ 4 / 24 - x ^ 6 / 720 + x ^ 8 / 40320 - x ^ 10 / 3628800 + x ^ 12 / 479001600 - x ^ 14 / 87178291200)) ?_ (by simp) ?_ x hx
  · linarith
  · intro x
    have h := ((hasDerivAt_sin x).sub ((((((((hasDerivAt_id x).sub ((hasDerivAt_pow 3 x).div_const 6)).add ((hasDerivAt_pow 5 x).div_const 120)).sub ((hasDerivAt_pow 7 x).div_const 5040)).add ((hasDerivAt_pow 9 x).div_const 362880)).sub ((hasDerivAt_pow 11 x).div_const 39916800)).add ((hasDerivAt_pow 13 x).div_const 6227020800)).sub ((hasDerivAt_pow 15 x).div_const 1307674368000)))
    refine h.congr_deriv ?_
    norm_num; ring
  · intro x hx
    have := cos_ge_fourteen x hx
    linarith

theorem cos_le_sixteen (x : ℝ) (hx : 0 ≤ x) : cos x ≤ 1 - x ^ 2 / 2 + x ^ 4 / 24 - x ^ 6 / 720 + x ^ 8 / 40320 - x ^ 10 / 3628800 + x ^ 12 / 479001600 - x ^ 14 / 87178291200 + x ^ 16 / 20922789888000 := by
  have := nonneg_of_deriv (f := fun x => 1 - x ^ 2 / 2 + x ^ 4 / 24 - x ^ 6 / 720 + x ^ 8 / 40320 - x ^ 10 / 3628800 + x ^ 12 / 479001600 - x ^ 14 / 87178291200 + x ^ 16 / 20922789888000 - cos x) (f' := fun x => sin x - (x - x ^ 3 / 6 + x ^ 5 / 120 - x ^ 7 / 5040 + x ^ 9 / 362880 - x ^ 11 / 39916800 + x ^ 13 / 6227020800 - x ^ 15 / 1307674368000)) ?_ (by simp) ?_ x hx
  · linarith
  · intro x
    have h := ((((((((((hasDerivAt_const x (1 : ℝ)).sub ((hasDerivAt_pow 2 x).div_const 2)).add ((hasDerivAt_pow 4 x).div_const 24)).sub ((hasDerivAt_pow 6 x).div_const 720)).add ((hasDerivAt_pow 8 x).div_const 40320)).sub ((hasDerivAt_pow 10 x).div_const 3628800)).add ((hasDerivAt_pow 12 x).div_const 479001600)).sub ((hasDerivAt_pow 14 x).div_const 87178291200)).add ((hasDerivAt_pow 16 x).div_const 20922789888000)).sub (hasDerivAt_cos x))
    refine h.congr_deriv ?_
    norm_num; ring
  · intro x hx
    have := sin_ge_fifteen x hx
    linarith

/-! ## With a factor for the remainder -/

theorem cos_factor_two (d : ℝ) : ∃ w, 1 - d ^ 2 / 12 ≤ w ∧ w ≤ 1 ∧ cos d = 1 - d ^ 2 / 2 * w := by
  rcases eq_or_ne d 0 with rfl | hd
  · exact ⟨1, by norm_num, le_refl _, by norm_num⟩
  · have hd2 : 0 < d ^ 2 := by positivity
    have h1 := cos_le_four |d| (abs_nonneg d)
    have h2 := one_sub_sq_div_two_le_cos (x := d)
    rw [cos_abs, sq_abs, (by norm_num : 4 = 2 * 2), pow_mul, sq_abs, ← pow_mul] at h1
    refine ⟨2 * (1 - cos d) / d ^ 2, ?_, ?_, by field_simp; ring⟩
    · rw [le_div_iff₀ hd2]; linarith
    · rw [div_le_one hd2]; linarith

theorem sin_factor_one (d : ℝ) : ∃ w, 1 - d ^ 2 / 6 ≤ w ∧ w ≤ 1 ∧ sin d = d * w := by
  rcases eq_or_ne d 0 with rfl | hd
  · exact ⟨1, by norm_num, le_refl _, by norm_num⟩
  · have pos : ∀ x : ℝ, 0 < x → 1 - x ^ 2 / 6 ≤ sin x / x ∧ sin x / x ≤ 1 := by
      intro x hx
      have h1 := sin_ge_cube x hx.le
      have h2 := sin_le hx.le
      exact ⟨by rw [le_div_iff₀ hx]; linarith, by rw [div_le_one hx]; exact h2⟩
    refine ⟨sin d / d, ?_, ?_, by field_simp⟩
    · rcases lt_or_gt_of_ne hd with h | h
      · have := (pos (-d) (by linarith)).1
        rwa [sin_neg, neg_div_neg_eq, neg_sq] at this
      · exact (pos d h).1
    · rcases lt_or_gt_of_ne hd with h | h
      · have := (pos (-d) (by linarith)).2
        rwa [sin_neg, neg_div_neg_eq] at this
      · exact (pos d h).2

theorem cos_factor_four (d : ℝ) : ∃ w, 1 - d ^ 2 / 30 ≤ w ∧ w ≤ 1 ∧ cos d = 1 - d ^ 2 / 2 + d ^ 4 / 24 * w := by
  rcases eq_or_ne d 0 with rfl | hd
  · exact ⟨1, by norm_num, le_refl _, by norm_num⟩
  · have hd4 : 0 < d ^ 4 := by positivity
    have h1 := cos_le_four |d| (abs_nonneg d)
    have h2 := cos_ge_six |d| (abs_nonneg d)
    have e4 : |d| ^ 4 = d ^ 4 := Even.pow_abs (by decide) d
    have e6 : |d| ^ 6 = d ^ 6 := Even.pow_abs (by decide) d
    rw [cos_abs, sq_abs, e4] at h1 h2
    rw [e6] at h2
    refine ⟨24 * (cos d - 1 + d ^ 2 / 2) / d ^ 4, ?_, ?_, by field_simp; ring⟩
    · rw [le_div_iff₀ hd4]; linarith
    · rw [div_le_one hd4]; linarith

theorem sin_factor_five (d : ℝ) : ∃ w, 1 - d ^ 2 / 42 ≤ w ∧ w ≤ 1 ∧ sin d = d - d ^ 3 / 6 + d ^ 5 / 120 * w := by
  rcases eq_or_ne d 0 with rfl | hd
  · exact ⟨1, by norm_num, le_refl _, by norm_num⟩
  · have pos : ∀ x : ℝ, 0 < x → 1 - x ^ 2 / 42 ≤ 120 * (sin x - x + x ^ 3 / 6) / x ^ 5 ∧ 120 * (sin x - x + x ^ 3 / 6) / x ^ 5 ≤ 1 := by
      intro x hx
      have h1 := sin_ge_seven x hx.le
      have h2 := sin_le_five x hx.le
      have h5 : 0 < x ^ 5 := by positivity
      exact ⟨by rw [le_div_iff₀ h5]; linarith, by rw [div_le_one h5]; linarith⟩
    have even : 120 * (sin (-d) - -d + (-d) ^ 3 / 6) / (-d) ^ 5 = 120 * (sin d - d + d ^ 3 / 6) / d ^ 5 := by
      rw [sin_neg]
      field_simp
      ring
    refine ⟨120 * (sin d - d + d ^ 3 / 6) / d ^ 5, ?_, ?_, by field_simp; ring⟩
    · rcases lt_or_gt_of_ne hd with h | h
      · have := (pos (-d) (by linarith)).1
        rwa [even, neg_sq] at this
      · exact (pos d h).1
    · rcases lt_or_gt_of_ne hd with h | h
      · have := (pos (-d) (by linarith)).2
        rwa [even] at this
      · exact (pos d h).2

end Radvel
