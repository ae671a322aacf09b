import Verif.Props.RoundedAverage
import Verif.Props.RoundedFastBin

/-!
# Error bars of binned points in floating point: their size (C189)
-/

namespace Radvel
open Real

theorem sqrt_near {x v d : ℝ} (hv : 0 ≤ v) (hd : |x - v| ≤ d) : |√x - √v| ≤ √d := by
  have hd0 : 0 ≤ d := (abs_nonneg _).trans hd
  have h := abs_le.1 hd
  rw [abs_le]
  constructor
  · have : √v ≤ √x + √d := by
      by_cases hx : 0 ≤ x
      · refine Real.sqrt_le_iff.2 ⟨by positivity, ?_⟩
        have := Real.sq_sqrt hx
        have := Real.sq_sqrt hd0
        nlinarith [Real.sqrt_nonneg x, Real.sqrt_nonneg d]
      · rw [show √x = 0 from Real.sqrt_eq_zero_of_nonpos (by linarith), zero_add]
        exact Real.sqrt_le_sqrt (by linarith)
    linarith
  · have : √x ≤ √v + √d := by
      refine Real.sqrt_le_iff.2 ⟨by positivity, ?_⟩
      have := Real.sq_sqrt hv
      have := Real.sq_sqrt hd0
      nlinarith [Real.sqrt_nonneg v, Real.sqrt_nonneg d]
    linarith

/-- C189: the mean of a bin, with rounding, differs from the mean of its values by at most `n + 3` half units of the largest. -/
theorem C189_mean (rnd : ℝ → ℝ) (h : RoundsToNearest rnd) (ys : List ℝ) (hne : ys ≠ []) (Y : ℝ) (hy : ∀ y ∈ ys, |y| ≤ Y) (hn : (ys.length : ℝ) + 3 ≤ 2 ^ 53) :
    |binMeanRounded rnd ys - ys.sum / ys.length| ≤ (ys.length + 3) * Y / 2 ^ 53 := by
  obtain ⟨y0, hy0⟩ := List.exists_mem_of_ne_nil ys hne
  exact (meanRounded_err h ((abs_nonneg _).trans (hy y0 hy0)) ys hne hy hn).1

/-- C189: where the error bar is a number, it is near the standard error of the mean: within 2⁻²³ of the largest value. -/
theorem C189_close (rnd : ℝ → ℝ) (h : RoundsToNearest rnd) (ys : List ℝ) (hne : ys ≠ []) (Y : ℝ) (hy : ∀ y ∈ ys, |y| ≤ Y) (hn : (ys.length : ℝ) + 3 ≤ 2 ^ 53) (b : ℝ) (hb : binErrRounded rnd ys = some b) :
    |b - √((ys.map (fun y => (y - ys.sum / ys.length) ^ 2)).sum / ys.length) / √ys.length| ≤ Y / 2 ^ 23 := by
  obtain ⟨y0, hy0⟩ := List.exists_mem_of_ne_nil ys hne
  have hY : 0 ≤ Y := (abs_nonneg _).trans (hy y0 hy0)
  have var := C189_variance rnd h ys hne Y hy hn
  set n : ℝ := (ys.length : ℝ) with hn'
  have n1 : 1 ≤ n := by rw [hn']; exact_mod_cast List.length_pos_iff.2 hne
  set v := (ys.map (fun y => (y - ys.sum / n) ^ 2)).sum / n with hv
  set x := binVarRounded rnd ys with hx
  have hm : |ys.sum / n| ≤ Y := (meanRounded_err h hY ys hne hy hn).2
  have v0 : 0 ≤ v := div_nonneg (List.sum_nonneg (by simp only [List.mem_map]; rintro _ ⟨y, _, rfl⟩; positivity)) (by linarith)
  have v4 : v ≤ (2 * Y) ^ 2 := by
    rw [hv, div_le_iff₀ (by linarith)]
    have := List.sum_le_card_nsmul (ys.map (fun y => (y - ys.sum / n) ^ 2)) ((2 * Y) ^ 2) (by
      simp only [List.mem_map]
      rintro _ ⟨y, hy', rfl⟩
      refine sq_le_sq' ?_ ?_ <;> linarith [abs_le.1 hm |>.1, abs_le.1 hm |>.2, (abs_le.1 (hy y hy')).1, (abs_le.1 (hy y hy')).2])
    rw [List.length_map, nsmul_eq_mul] at this
    linarith
  unfold binErrRounded at hb
  rw [← hx] at hb
  split at hb
  · cases hb
  · rename_i x0
    have x0 := not_lt.1 x0
    simp only [Option.some.injEq] at hb
    have sn : 1 ≤ √n := Real.one_le_sqrt.2 n1
    have sn0 : 0 < √n := by linarith
    have sx := Real.sqrt_nonneg x
    have a1 := agree_rnd h sx
    have a2 := agree_rnd h sn0.le
    have q0 : 0 ≤ rnd √x * (1 / rnd √n) := mul_nonneg (a1.nonneg sx) (one_div_nonneg.2 (a2.nonneg sn0.le))
    have a3 : Agree 3 b (√x * (1 / √n)) := by
      rw [← hb, div_eq_mul_one_div]
      exact (agree_rnd h q0).trans (a1.mul (a2.inv sn0) sx (by positivity))
    have r1 := a3.near (by positivity)
    have st : stretch ^ 3 - 1 ≤ 2 * (3 : ℕ) / 2 ^ 53 := stretch_le (by norm_num)
    set D := √((6 * n + 36) * Y ^ 2 / 2 ^ 53) with hD
    have s1 : |√x - √v| ≤ D := sqrt_near v0 var
    have hDn : D / √n ≤ Y * 7e-8 := by
      rw [div_le_iff₀ sn0, hD]
      refine Real.sqrt_le_iff.2 ⟨by positivity, ?_⟩
      rw [mul_pow, Real.sq_sqrt (by linarith)]
      have : (6 * n + 36) * Y ^ 2 / 2 ^ 53 ≤ 42 * n * Y ^ 2 / 2 ^ 53 := by gcongr; linarith
      refine this.trans ?_
      have : 0 ≤ n * Y ^ 2 := by positivity
      norm_num
      nlinarith
    have s2 : |√x * (1 / √n) - √v / √n| ≤ Y * 7e-8 := by
      rw [mul_one_div, ← sub_div, abs_div, abs_of_pos sn0]
      exact (div_le_div_of_nonneg_right s1 sn0.le).trans hDn
    have s3 : √v / √n ≤ 2 * Y := by
      rw [div_le_iff₀ sn0]
      have : √v ≤ 2 * Y := Real.sqrt_le_iff.2 ⟨by linarith, v4⟩
      nlinarith
    have s4 : √x * (1 / √n) ≤ 3 * Y := by linarith [(abs_le.1 s2).2]
    have s5 : |b - √x * (1 / √n)| ≤ 6 / 2 ^ 53 * (3 * Y) := by
      refine r1.trans ?_
      have q : 0 ≤ √x * (1 / √n) := by positivity
      push_cast at st
      have z : stretch ^ 3 - 1 ≤ 6 / 2 ^ 53 := by linarith
      gcongr
    have tri := abs_sub_le b (√x * (1 / √n)) (√v / √n)
    have : 6 / 2 ^ 53 * (3 * Y) + Y * 7e-8 ≤ Y / 2 ^ 23 := by norm_num; nlinarith
    linarith
/-- The hypotheses can be met: two velocities have an error bar. -/
example (rnd : ℝ → ℝ) (h : RoundsToNearest rnd) : (∀ y ∈ [(1 : ℝ), -1], |y| ≤ 1) ∧ ∃ b, binErrRounded rnd [1, -1] = some b := by
  have hy : ∀ y ∈ [(1 : ℝ), -1], |y| ≤ 1 := by simp
  obtain ⟨b, _, hb⟩ := C189_bar_partial rnd h [1, -1] (by simp) 1 hy (by norm_num) (by norm_num)
  exact ⟨hy, b, hb⟩

end Radvel
