import Verif.Model.RoundedFastBin
import Verif.Model.FastBin
import Verif.Props.RoundedPhase
import Mathlib.Algebra.BigOperators.Group.List.Basic

/-!
# Error bars of binned points in floating point (C189)
-/

namespace Radvel

/-! ## errors of sums -/

theorem abs_sum_le {l : List ℝ} {Y : ℝ} (hl : ∀ y ∈ l, |y| ≤ Y) : |l.sum| ≤ l.length * Y := by
  induction l with
  | nil => simp
  | cons a l ih =>
    have h1 := hl a (by simp)
    have h2 := ih (fun y hy => hl y (by simp [hy]))
    rw [List.sum_cons, List.length_cons]
    push_cast
    have := abs_add_le a l.sum
    linarith

/-- Adding `n` numbers of at most `Y` one after the other is off by at most `n (n + 1)` half units. -/
theorem sumRounded_err {rnd : ℝ → ℝ} (h : RoundsToNearest rnd) {Y : ℝ} (hY : 0 ≤ Y) (l : List ℝ) (hl : ∀ y ∈ l, |y| ≤ Y) (hn : (l.length : ℝ) ≤ 2 ^ 53) :
    |sumRounded rnd l - l.sum| ≤ l.length * (l.length + 1) * Y / 2 ^ 53 := by
  induction l using List.reverseRecOn with
  | nil => simp [sumRounded]
  | append_singleton l a ih =>
    have hl' : ∀ y ∈ l, |y| ≤ Y := fun y hy => hl y (by simp [hy])
    have ha : |a| ≤ Y := hl a (by simp)
    rw [List.length_append, List.length_singleton] at hn ⊢
    push_cast at hn ⊢
    have ih := ih hl' (by linarith)
    have hs := abs_sum_le hl'
    have e : sumRounded rnd (l ++ [a]) = rnd (sumRounded rnd l + a) := by simp [sumRounded]
    rw [e, List.sum_append, List.sum_singleton]
    have r := h.err (sumRounded rnd l + a)
    set S := sumRounded rnd l
    set n : ℝ := (l.length : ℝ)
    have hn0 : 0 ≤ n := by positivity
    have b : |S + a| ≤ (n + 1) * Y + n * (n + 1) * Y / 2 ^ 53 := by
      have a1 := abs_add_le S a
      have a2 := abs_sub_abs_le_abs_sub S l.sum
      linarith
    have c : n * (n + 1) * Y / 2 ^ 53 ≤ (n + 1) * Y := by
      rw [div_le_iff₀ (by norm_num)]
      have : 0 ≤ (n + 1) * Y := by positivity
      nlinarith
    have r2 : |S + a - rnd (S + a)| ≤ 2 * ((n + 1) * Y) / 2 ^ 53 := r.trans (div_le_div_of_nonneg_right (by linarith) (by norm_num))
    have t := abs_sub_le (rnd (S + a)) (S + a) (l.sum + a)
    rw [abs_sub_comm (rnd (S + a)) (S + a), show S + a - (l.sum + a) = S - l.sum by ring] at t
    have : n * (n + 1) * Y / 2 ^ 53 + 2 * ((n + 1) * Y) / 2 ^ 53 = (n + 1) * (n + 1 + 1) * Y / 2 ^ 53 := by ring
    linarith

/-- The rounded mean of `n` numbers of at most `Y`. -/
theorem meanRounded_err {rnd : ℝ → ℝ} (h : RoundsToNearest rnd) {Y : ℝ} (hY : 0 ≤ Y) (l : List ℝ) (hne : l ≠ []) (hl : ∀ y ∈ l, |y| ≤ Y) (hn : (l.length : ℝ) + 3 ≤ 2 ^ 53) :
    |rnd (sumRounded rnd l / l.length) - l.sum / l.length| ≤ (l.length + 3) * Y / 2 ^ 53 ∧ |l.sum / l.length| ≤ Y := by
  have e := sumRounded_err h hY l hl (by linarith)
  have s := abs_sum_le hl
  have hpos : (0 : ℝ) < l.length := by exact_mod_cast List.length_pos_iff.2 hne
  set n : ℝ := (l.length : ℝ)
  set S := sumRounded rnd l
  have m : |l.sum / n| ≤ Y := by
    rw [abs_div, abs_of_pos hpos, div_le_iff₀ hpos]; linarith
  have d : |S / n - l.sum / n| ≤ (n + 1) * Y / 2 ^ 53 := by
    rw [← sub_div, abs_div, abs_of_pos hpos, div_le_iff₀ hpos]
    refine e.trans (le_of_eq ?_)
    ring
  have c : (n + 1) * Y / 2 ^ 53 ≤ Y := by
    rw [div_le_iff₀ (by norm_num)]
    nlinarith
  have b : |S / n| ≤ 2 * Y := by
    have := abs_sub_abs_le_abs_sub (S / n) (l.sum / n)
    linarith
  have r := (h.err (S / n)).trans (div_le_div_of_nonneg_right b (by norm_num))
  refine ⟨?_, m⟩
  have t := abs_sub_le (rnd (S / n)) (S / n) (l.sum / n)
  rw [abs_sub_comm (rnd (S / n)) (S / n)] at t
  have : (n + 1) * Y / 2 ^ 53 + 2 * Y / 2 ^ 53 = (n + 3) * Y / 2 ^ 53 := by ring
  linarith

theorem sum_sq_sub (l : List ℝ) (c : ℝ) : (l.map (fun y => (y - c) ^ 2)).sum = (l.map (fun y => y * y)).sum - 2 * c * l.sum + l.length * c ^ 2 := by
  induction l with
  | nil => simp
  | cons a l ih =>
    simp only [List.map_cons, List.sum_cons, List.length_cons, ih]
    push_cast
    ring

theorem sum_map_err {f g : ℝ → ℝ} {E : ℝ} (l : List ℝ) (hl : ∀ y ∈ l, |f y - g y| ≤ E) : |(l.map f).sum - (l.map g).sum| ≤ l.length * E := by
  induction l with
  | nil => simp
  | cons a l ih =>
    have h1 := hl a (by simp)
    have h2 := ih (fun y hy => hl y (by simp [hy]))
    simp only [List.map_cons, List.sum_cons, List.length_cons]
    push_cast
    have := abs_add_le (f a - g a) ((l.map f).sum - (l.map g).sum)
    have e : f a + (l.map f).sum - (g a + (l.map g).sum) = f a - g a + ((l.map f).sum - (l.map g).sum) := by ring
    rw [e]
    linarith

/-! ## C189 -/

/-- C189: what `fastbin` takes the square root of differs from the variance of the values by at most `6 n + 36` half units of their largest square. -/
theorem C189_variance (rnd : ℝ → ℝ) (h : RoundsToNearest rnd) (ys : List ℝ) (hne : ys ≠ []) (Y : ℝ) (hy : ∀ y ∈ ys, |y| ≤ Y) (hn : (ys.length : ℝ) + 3 ≤ 2 ^ 53) :
    |binVarRounded rnd ys - (ys.map (fun y => (y - ys.sum / ys.length) ^ 2)).sum / ys.length| ≤ (6 * ys.length + 36) * Y ^ 2 / 2 ^ 53 := by
  obtain ⟨y0, hy0⟩ := List.exists_mem_of_ne_nil ys hne
  have hY : 0 ≤ Y := (abs_nonneg _).trans (hy y0 hy0)
  have hpos : (0 : ℝ) < ys.length := by exact_mod_cast List.length_pos_iff.2 hne
  -- the mean and its square
  obtain ⟨m1, m2⟩ := meanRounded_err h hY ys hne hy hn
  -- the squares
  have w1 : ∀ y ∈ ys, |rnd (y * y) - y * y| ≤ Y ^ 2 / 2 ^ 53 := by
    intro y hy'
    rw [abs_sub_comm]
    refine (h.err _).trans (div_le_div_of_nonneg_right ?_ (by norm_num))
    rw [abs_mul, pow_two]
    exact mul_le_mul (hy y hy') (hy y hy') (abs_nonneg _) hY
  have Y2 : 0 ≤ Y ^ 2 := by positivity
  have tiny : Y ^ 2 / 2 ^ 53 ≤ Y ^ 2 := div_le_self Y2 (by norm_num)
  have w2 : ∀ w ∈ ys.map (fun y => rnd (y * y)), |w| ≤ 2 * Y ^ 2 := by
    intro w hw
    obtain ⟨y, hy', rfl⟩ := List.mem_map.1 hw
    have a := w1 y hy'
    have b : |y * y| ≤ Y ^ 2 := by
      rw [abs_mul, pow_two]
      exact mul_le_mul (hy y hy') (hy y hy') (abs_nonneg _) hY
    have := abs_sub_abs_le_abs_sub (rnd (y * y)) (y * y)
    linarith
  have q1 := meanRounded_err h (by positivity : 0 ≤ 2 * Y ^ 2) (ys.map (fun y => rnd (y * y))) (by simpa using hne) w2 (by simpa using hn)
  rw [List.length_map] at q1
  obtain ⟨q1, q2⟩ := q1
  have q3 := sum_map_err ys w1
  have e : (ys.map (fun y => (y - ys.sum / ys.length) ^ 2)).sum / ys.length = (ys.map (fun y => y * y)).sum / ys.length - (ys.sum / ys.length) * (ys.sum / ys.length) := by
    rw [sum_sq_sub]
    field_simp
    ring
  rw [e]
  unfold binVarRounded
  change |rnd (_ - rnd (binMeanRounded rnd ys * binMeanRounded rnd ys)) - _| ≤ _
  unfold binMeanRounded
  set n : ℝ := (ys.length : ℝ)
  set d := rnd (sumRounded rnd ys / n)
  set m := ys.sum / n
  set W := (ys.map (fun y => rnd (y * y))).sum
  set Q := (ys.map (fun y => y * y)).sum
  set q := rnd (sumRounded rnd (ys.map (fun y => rnd (y * y))) / n)
  have k1 : (n + 3) * Y / 2 ^ 53 ≤ Y := by
    rw [div_le_iff₀ (by norm_num)]; nlinarith
  have d1 : |d| ≤ 2 * Y := by
    have := abs_sub_abs_le_abs_sub d m
    linarith
  have dd : |d * d - m * m| ≤ 3 * (n + 3) * Y ^ 2 / 2 ^ 53 := by
    have : d * d - m * m = (d - m) * (d + m) := by ring
    rw [this, abs_mul]
    have s : |d + m| ≤ 3 * Y := (abs_add_le d m).trans (by linarith)
    refine (mul_le_mul m1 s (abs_nonneg _) (by positivity)).trans (le_of_eq ?_)
    ring
  have d2 : |d * d| ≤ 4 * Y ^ 2 := by
    rw [abs_mul]
    refine (mul_le_mul d1 d1 (abs_nonneg _) (by positivity)).trans (le_of_eq ?_)
    ring
  have dr : |d * d - rnd (d * d)| ≤ 4 * Y ^ 2 / 2 ^ 53 := (h.err _).trans (div_le_div_of_nonneg_right d2 (by norm_num))
  have q4 : |W / n - Q / n| ≤ Y ^ 2 / 2 ^ 53 := by
    rw [← sub_div, abs_div, abs_of_pos hpos, div_le_iff₀ hpos]
    linarith
  have k2 : (n + 3) * (2 * Y ^ 2) / 2 ^ 53 ≤ 2 * Y ^ 2 := by
    rw [div_le_iff₀ (by norm_num)]
    have : 0 ≤ 2 * Y ^ 2 := by positivity
    nlinarith
  have q5 : |q| ≤ 4 * Y ^ 2 := by
    have := abs_sub_abs_le_abs_sub q (W / n)
    linarith
  have d3 : |rnd (d * d)| ≤ 8 * Y ^ 2 := by
    have := abs_sub_abs_le_abs_sub (rnd (d * d)) (d * d)
    rw [abs_sub_comm] at this
    have t4 : 4 * Y ^ 2 / 2 ^ 53 ≤ 4 * Y ^ 2 := div_le_self (by positivity) (by norm_num)
    linarith
  have v1 : |q - rnd (d * d)| ≤ 12 * Y ^ 2 := (abs_sub _ _).trans (by linarith)
  have v2 : |q - rnd (d * d) - rnd (q - rnd (d * d))| ≤ 12 * Y ^ 2 / 2 ^ 53 := (h.err _).trans (div_le_div_of_nonneg_right v1 (by norm_num))
  rw [abs_le] at v2 dr dd q1 q4 ⊢
  have f1 : (n + 3) * (2 * Y ^ 2) / 2 ^ 53 + Y ^ 2 / 2 ^ 53 + 3 * (n + 3) * Y ^ 2 / 2 ^ 53 + 4 * Y ^ 2 / 2 ^ 53 + 12 * Y ^ 2 / 2 ^ 53 ≤ (6 * n + 36) * Y ^ 2 / 2 ^ 53 := by
    rw [← add_div, ← add_div, ← add_div, ← add_div]
    refine div_le_div_of_nonneg_right ?_ (by norm_num)
    nlinarith
  constructor <;> linarith [v2.1, v2.2, dr.1, dr.2, dd.1, dd.2, q1.1, q1.2, q4.1, q4.2]

/-- C189: the error bar is a number if the variance is above the rounding error. -/
theorem C189_bar_partial (rnd : ℝ → ℝ) (h : RoundsToNearest rnd) (ys : List ℝ) (hne : ys ≠ []) (Y : ℝ) (hy : ∀ y ∈ ys, |y| ≤ Y) (hn : (ys.length : ℝ) + 3 ≤ 2 ^ 53)
    (hv : (6 * ys.length + 36) * Y ^ 2 / 2 ^ 53 ≤ (ys.map (fun y => (y - ys.sum / ys.length) ^ 2)).sum / ys.length) : ∃ b, 0 ≤ b ∧ binErrRounded rnd ys = some b := by
  have v := abs_le.1 (C189_variance rnd h ys hne Y hy hn)
  have : 0 ≤ binVarRounded rnd ys := by linarith [v.1]
  refine ⟨_, ?_, if_neg (not_lt.2 this)⟩
  exact h.ge isBinary_zero (div_nonneg (h.ge isBinary_zero (Real.sqrt_nonneg _)) (h.ge isBinary_zero (Real.sqrt_nonneg _)))

/-- A number within half a unit of one with 53 digits is rounded to this. -/
theorem RoundsToNearest.value {rnd : ℝ → ℝ} (h : RoundsToNearest rnd) (x : ℝ) (m e : ℤ) (h1 : 2 ^ 52 < m) (h2 : m ≤ 2 ^ 53) (hx : |x - m * 2 ^ e| < 2 ^ e / 2) : rnd x = m * 2 ^ e := by
  have he := two_zpow_pos e
  have hb : IsBinary ((m : ℝ) * 2 ^ e) := ⟨m, e, abs_le.2 ⟨by omega, h2⟩, rfl⟩
  have n1 := h.nearest x _ hb
  have d : |rnd x - m * 2 ^ e| < 2 ^ e := by
    have t := abs_sub_le (rnd x) x (m * 2 ^ e)
    rw [abs_sub_comm (rnd x) x] at t
    linarith
  have l := (abs_lt.1 d).1
  have m1 : (2 : ℝ) ^ (52 : ℕ) + 1 ≤ m := by exact_mod_cast h1
  have big : (2 : ℝ) ^ (52 + e) ≤ rnd x := by
    rw [zpow_add₀ (by norm_num), show (2 : ℝ) ^ (52 : ℤ) = 2 ^ (52 : ℕ) from zpow_natCast 2 52]
    nlinarith
  obtain ⟨k, hk⟩ := (h.binary x).onGrid (e := e) (by rw [abs_of_nonneg ((two_zpow_pos _).le.trans big)]; exact big)
  rw [hk] at d ⊢
  rw [← sub_mul, abs_mul, abs_of_pos he] at d
  have d2 : |(k : ℝ) - m| < 1 := by
    by_contra hc
    push Not at hc
    nlinarith
  have d3 : |k - m| < 1 := by exact_mod_cast d2
  have : k = m := by
    have := Int.abs_lt_one_iff.1 d3
    omega
  rw [this]

/-- C189 is false: five values of 1.33 (as a floating-point number) have the error bar nan, because the mean of their squares is rounded to less than the square of their mean. -/
theorem C189_nan_violated (rnd : ℝ → ℝ) (h : RoundsToNearest rnd) : binErrRounded rnd (List.replicate 5 (rnd 1.33)) = none := by
  have y : rnd 1.33 = 5989787504402760 * 2 ^ (-52 : ℤ) := by
    have := h.value 1.33 5989787504402760 (-52) (by norm_num) (by norm_num) (by norm_num [abs_lt])
    exact_mod_cast this
  have s1 : rnd (rnd 1.33) = rnd 1.33 := h.fix (h.binary _)
  have fx : ∀ (x : ℝ) (m e : ℤ), |m| ≤ 2 ^ 53 → x = m * 2 ^ e → rnd x = x := fun x m e hm hx => h.fix ⟨m, e, hm, hx⟩
  have sum : sumRounded rnd (List.replicate 5 (rnd 1.33)) = 5 * rnd 1.33 := by
    simp only [sumRounded, List.replicate, List.foldl, zero_add]
    rw [s1, y]
    rw [fx (5989787504402760 * 2 ^ (-52 : ℤ) + 5989787504402760 * 2 ^ (-52 : ℤ)) 5989787504402760 (-51) (by norm_num) (by norm_num)]
    rw [fx (5989787504402760 * 2 ^ (-52 : ℤ) + 5989787504402760 * 2 ^ (-52 : ℤ) + 5989787504402760 * 2 ^ (-52 : ℤ)) 8984681256604140 (-51) (by norm_num) (by norm_num)]
    rw [fx (5989787504402760 * 2 ^ (-52 : ℤ) + 5989787504402760 * 2 ^ (-52 : ℤ) + 5989787504402760 * 2 ^ (-52 : ℤ) + 5989787504402760 * 2 ^ (-52 : ℤ)) 5989787504402760 (-50) (by norm_num) (by norm_num)]
    rw [fx _ 7487234380503450 (-50) (by norm_num) (by norm_num)]
    norm_num
  have sq : rnd (rnd 1.33 * rnd 1.33) = 7966417380855671 * 2 ^ (-52 : ℤ) := by
    rw [y]
    have := h.value (5989787504402760 * 2 ^ (-52 : ℤ) * (5989787504402760 * 2 ^ (-52 : ℤ))) 7966417380855671 (-52) (by norm_num) (by norm_num) (by norm_num [abs_lt])
    exact_mod_cast this
  have mean : binMeanRounded rnd (List.replicate 5 (rnd 1.33)) = rnd 1.33 := by
    unfold binMeanRounded
    rw [sum, List.length_replicate, show (5 * rnd 1.33 / ((5 : ℕ) : ℝ)) = rnd 1.33 by norm_num, s1]
  have sum2 : sumRounded rnd ((List.replicate 5 (rnd 1.33)).map (fun y => rnd (y * y))) = 4979010863034794 * 2 ^ (-49 : ℤ) := by
    rw [List.map_replicate, sq]
    simp only [sumRounded, List.replicate, List.foldl, zero_add]
    rw [fx (7966417380855671 * 2 ^ (-52 : ℤ)) 7966417380855671 (-52) (by norm_num) (by norm_num)]
    rw [fx (7966417380855671 * 2 ^ (-52 : ℤ) + 7966417380855671 * 2 ^ (-52 : ℤ)) 7966417380855671 (-51) (by norm_num) (by norm_num)]
    rw [h.value (7966417380855671 * 2 ^ (-52 : ℤ) + 7966417380855671 * 2 ^ (-52 : ℤ) + 7966417380855671 * 2 ^ (-52 : ℤ)) 5974813035641753 (-50) (by norm_num) (by norm_num) (by norm_num [abs_lt])]
    rw [h.value (((5974813035641753 : ℤ) : ℝ) * 2 ^ (-50 : ℤ) + 7966417380855671 * 2 ^ (-52 : ℤ)) 7966417380855671 (-50) (by norm_num) (by norm_num) (by norm_num [abs_lt])]
    rw [h.value _ 4979010863034794 (-49) (by norm_num) (by norm_num) (by norm_num [abs_lt])]
    norm_num
  have var : binVarRounded rnd (List.replicate 5 (rnd 1.33)) = -(2 ^ (-52 : ℤ)) := by
    unfold binVarRounded
    rw [mean, sq, sum2, List.length_replicate]
    rw [h.value (4979010863034794 * 2 ^ (-49 : ℤ) / ((5 : ℕ) : ℝ)) 7966417380855670 (-52) (by norm_num) (by norm_num) (by norm_num [abs_lt])]
    rw [fx _ (-1) (-52) (by norm_num) (by norm_num)]
    norm_num
  unfold binErrRounded
  rw [var, if_pos (by norm_num)]

/-- Without rounding these are the means and error bars of C134. -/
theorem binErrRounded_exact (pts : List XY) (nbins i : Nat) (hne : histBin pts nbins i ≠ []) :
    binMeanRounded id ((histBin pts nbins i).map XY.y) = (binXY pts nbins i).dat ∧ binErrRounded id ((histBin pts nbins i).map XY.y) = some (binXY pts nbins i).err := by
  have hs : ∀ l : List ℝ, sumRounded id l = l.sum := by
    intro l
    induction l using List.reverseRecOn with
    | nil => rfl
    | append_singleton l a ih =>
      rw [List.sum_append, ← ih]
      simp [sumRounded]
  set b := histBin pts nbins i with hb
  have hm : binMeanRounded id (b.map XY.y) = (b.map XY.y).sum / b.length := by
    unfold binMeanRounded
    rw [hs, List.length_map]
    rfl
  have hv : binVarRounded id (b.map XY.y) = (b.map (fun p => p.y * p.y)).sum / b.length - (b.map XY.y).sum / b.length * ((b.map XY.y).sum / b.length) := by
    unfold binVarRounded
    rw [hm, hs, List.length_map, List.map_map]
    rfl
  have hpos : (0 : ℝ) < b.length := by exact_mod_cast List.length_pos_iff.2 hne
  have h0 : 0 ≤ binVarRounded id (b.map XY.y) := by
    have e := sum_sq_sub (b.map XY.y) ((b.map XY.y).sum / b.length)
    have nn : 0 ≤ ((b.map XY.y).map (fun y => (y - (b.map XY.y).sum / b.length) ^ 2)).sum := by
      apply List.sum_nonneg
      intro x hx
      obtain ⟨y, -, rfl⟩ := List.mem_map.1 hx
      positivity
    rw [e, List.map_map, List.length_map] at nn
    have : (b.map (fun p => p.y * p.y)).sum / b.length - (b.map XY.y).sum / b.length * ((b.map XY.y).sum / b.length) =
        ((b.map ((fun y => y * y) ∘ XY.y)).sum - 2 * ((b.map XY.y).sum / b.length) * (b.map XY.y).sum + b.length * ((b.map XY.y).sum / b.length) ^ 2) / b.length := by
      rw [show ((fun y : ℝ => y * y) ∘ XY.y) = fun p => p.y * p.y from rfl]
      field_simp
      ring
    rw [hv, this]
    exact div_nonneg nn hpos.le
  refine ⟨hm, ?_⟩
  unfold binErrRounded
  rw [if_neg (not_lt.2 h0), hv, List.length_map]
  rfl

/-- The hypotheses can be met: values 1, 2 and 3. -/
example : (∃ rnd, RoundsToNearest rnd) ∧ (∀ y ∈ [(1 : ℝ), 2, 3], |y| ≤ 3) ∧
    (6 * ([(1 : ℝ), 2, 3].length : ℝ) + 36) * 3 ^ 2 / 2 ^ 53 ≤ ([(1 : ℝ), 2, 3].map (fun y => (y - [(1 : ℝ), 2, 3].sum / [(1 : ℝ), 2, 3].length) ^ 2)).sum / [(1 : ℝ), 2, 3].length := by
  refine ⟨exists_rounding, ?_, by norm_num⟩
  intro y hy
  simp only [List.mem_cons, List.not_mem_nil, or_false] at hy
  rcases hy with rfl | rfl | rfl <;> norm_num [abs_le]

end Radvel
