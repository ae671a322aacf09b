import Verif.Model.RoundedDate
import Verif.Props.RoundedPhase
import Verif.Props.Numbers

/-!
# Julian dates in floating point (C188)
-/

namespace Radvel

/-- Rounding a number of at most `2 ^ (53 + k)` moves it by at most half of `2 ^ k`. -/
theorem RoundsToNearest.half {rnd : ℝ → ℝ} (h : RoundsToNearest rnd) {x : ℝ} (k : ℤ) (hx : |x| ≤ 2 ^ (53 + k)) : |x - rnd x| ≤ 2 ^ k / 2 := by
  obtain ⟨g, e, -⟩ := round_grid k x
  exact (h.nearest x _ (g.isBinary (abs_le_grid hx))).trans e

theorem isBinary_int (n : ℤ) (h : |n| ≤ 2 ^ 53) : IsBinary n := ⟨n, 0, h, by norm_num⟩

/-- The days of a date, whole and exact, and the fraction of the day with its error. -/
theorem date2jdRounded_err (rnd : ℝ → ℝ) (h : RoundsToNearest rnd) (d : ℤ) (k : ℤ) (h1 : datetime 1 1 1 0 0 0 ≤ d) (h2 : d < datetime 10000 1 1 0 0 0) (hk : date2jd d + 1 ≤ 2 ^ (53 + k)) :
    |date2jdRounded rnd d - date2jd d| ≤ 2 ^ k / 2 + 1 / 2 ^ 53 ∧ 2 ^ 20 ≤ date2jdRounded rnd d ∧ date2jdRounded rnd d ≤ 2 ^ 23 := by
  unfold date2jdRounded
  unfold date2jd at hk ⊢
  simp only at hk ⊢
  have e0 : datetime 2000 1 1 12 0 0 = 730120 * usDay + 43200 * 1000000 := by decide
  have e1 : datetime 1 1 1 0 0 0 = usDay := by decide
  have e2 : datetime 10000 1 1 0 0 0 = 3652060 * usDay := by decide
  rw [e1] at h1
  rw [e2] at h2
  rw [e0, show (2451545.0 : ℝ) = 2451545 from by norm_num, show (86400.0 : ℝ) = 86400 from by norm_num] at hk ⊢
  set td := d - (730120 * usDay + 43200 * 1000000) with htd
  have q1 : -730120 ≤ td / usDay := by unfold usDay at *; omega
  have q2 : td / usDay ≤ 2921940 := by unfold usDay at *; omega
  have s1 : 0 ≤ td % usDay / 1000000 := by unfold usDay at *; omega
  have s2 : td % usDay / 1000000 ≤ 86400 := by unfold usDay at *; omega
  have q1' : (-730120 : ℝ) ≤ ((td / usDay : ℤ) : ℝ) := by exact_mod_cast q1
  have q2' : ((td / usDay : ℤ) : ℝ) ≤ 2921940 := by exact_mod_cast q2
  have s1' : (0 : ℝ) ≤ ((td % usDay / 1000000 : ℤ) : ℝ) := by exact_mod_cast s1
  have s2' : ((td % usDay / 1000000 : ℤ) : ℝ) ≤ 86400 := by exact_mod_cast s2
  have hD : rnd (2451545 + ((td / usDay : ℤ) : ℝ)) = 2451545 + ((td / usDay : ℤ) : ℝ) := by
    apply h.fix
    have := isBinary_int (2451545 + td / usDay) (abs_le.2 ⟨by omega, by omega⟩)
    push_cast at this
    exact this
  rw [hD]
  set q := ((td / usDay : ℤ) : ℝ)
  set s := ((td % usDay / 1000000 : ℤ) : ℝ)
  have f0 : 0 ≤ s / 86400 := by positivity
  have f1 : s / 86400 ≤ 1 := by rw [div_le_one (by norm_num)]; exact s2'
  have g0 := h.ge isBinary_zero f0
  have g1 := h.le isBinary_one f1
  have fe := h.err (s / 86400)
  rw [abs_of_nonneg f0] at fe
  have fe' : |s / 86400 - rnd (s / 86400)| ≤ 1 / 2 ^ 53 := fe.trans (div_le_div_of_nonneg_right f1 (by norm_num))
  set f := rnd (s / 86400)
  have hx : |2451545 + q + f| ≤ 2 ^ (53 + k) := by
    rw [abs_of_nonneg (by linarith)]
    linarith
  have r := h.half k hx
  refine ⟨?_, ?_, ?_⟩
  · have a := abs_sub_le (rnd (2451545 + q + f)) (2451545 + q + f) (2451545 + q + s / 86400)
    rw [abs_sub_comm] at r
    have e : 2451545 + q + f - (2451545 + q + s / 86400) = f - s / 86400 := by ring
    rw [e, abs_sub_comm f] at a
    linarith
  · have b : IsBinary (2 ^ 20 : ℝ) := ⟨1, 20, by norm_num, by norm_num⟩
    apply h.ge b
    have : (2 : ℝ) ^ 20 = 1048576 := by norm_num
    linarith
  · have b : IsBinary (2 ^ 23 : ℝ) := ⟨1, 23, by norm_num, by norm_num⟩
    apply h.le b
    have : (2 : ℝ) ^ 23 = 8388608 := by norm_num
    linarith

/-- The modified Julian date of a floating-point Julian date is exact. -/
theorem mjd_exact (rnd : ℝ → ℝ) (h : RoundsToNearest rnd) {j : ℝ} (hj : IsBinary j) (h1 : 2 ^ 20 ≤ j) (h2 : j ≤ 2 ^ 23) : rnd (j - 2400000.5) = j - 2400000.5 := by
  apply h.fix
  have g : ∀ e : ℤ, e ≤ -1 → OnGrid e (2400000.5 : ℝ) := fun e he => OnGrid.finer (e := -1) ⟨4800001, by norm_num⟩ he
  rcases lt_or_ge j (2 ^ 22) with hlt | hge
  · refine ((hj.onGrid (e := -32) ?_).sub (g _ (by norm_num))).isBinary ?_
    · rw [abs_of_nonneg (by linarith [show (0 : ℝ) < 2 ^ 20 by norm_num])]; norm_num at h1 ⊢; exact h1
    · norm_num at h1 hlt ⊢
      exact abs_le.2 ⟨by linarith, by linarith⟩
  · refine ((hj.onGrid (e := -30) ?_).sub (g _ (by norm_num))).isBinary ?_
    · rw [abs_of_nonneg (by linarith [show (0 : ℝ) < 2 ^ 20 by norm_num])]; norm_num at hge ⊢; exact hge
    · norm_num at h2 hge ⊢
      exact abs_le.2 ⟨by linarith, by linarith⟩

theorem truncInt_dist (x : ℝ) : |x - truncInt x| ≤ 1 := by
  unfold truncInt
  split_ifs
  · have a := Int.floor_le x
    have b := Int.lt_floor_add_one x
    exact abs_le.2 ⟨by linarith, by linarith⟩
  · have a := Int.le_ceil x
    have b := Int.ceil_lt_add_one x
    exact abs_le.2 ⟨by linarith, by linarith⟩

/-- A `timedelta` is within 0.5001 microseconds of the days it is made from. -/
theorem timedeltaRounded_err (rnd : ℝ → ℝ) (h : RoundsToNearest rnd) (x : ℝ) : |(timedeltaRounded rnd x : ℝ) - x * usDay| ≤ 0.5001 := by
  unfold timedeltaRounded
  have t := truncInt_dist x
  set i := truncInt x
  have e := h.err ((x - i) * usDay)
  have u : (usDay : ℝ) = 86400000000 := by unfold usDay; norm_num
  have r := roundEven_dist (rnd ((x - i) * usDay))
  have e' : |(x - i) * usDay - rnd ((x - i) * usDay)| ≤ 1 / 10000 := by
    refine e.trans ?_
    rw [abs_mul, u, abs_of_pos (by norm_num : (0 : ℝ) < 86400000000), div_le_iff₀ (by norm_num)]
    norm_num
    linarith
  push_cast
  have a := abs_sub_le (roundEven (rnd ((x - i) * usDay)) : ℝ) (rnd ((x - i) * usDay)) ((x - i) * usDay)
  rw [abs_sub_comm] at e'
  have eq : (i : ℝ) * usDay + roundEven (rnd ((x - i) * usDay)) - x * usDay = roundEven (rnd ((x - i) * usDay)) - (x - i) * usDay := by ring
  rw [eq]
  norm_num at *
  linarith

/-- To Julian date and back, with the error in terms of the grid of the Julian date. -/
theorem jd2dateRounded_err (rnd : ℝ → ℝ) (h : RoundsToNearest rnd) (d : ℤ) (k : ℤ) (h1 : datetime 1 1 1 0 0 0 ≤ d) (h2 : d < datetime 10000 1 1 0 0 0) (hk : date2jd d + 1 ≤ 2 ^ (53 + k)) :
    |((jd2dateRounded rnd (date2jdRounded rnd d) - (d - d % 1000000) : ℤ) : ℝ)| ≤ 2 ^ k / 2 * 86400000000 + 0.5002 := by
  obtain ⟨e, j1, j2⟩ := date2jdRounded_err rnd h d k h1 h2 hk
  have hb : IsBinary (date2jdRounded rnd d) := h.binary _
  set j := date2jdRounded rnd d
  unfold jd2dateRounded
  simp only
  rw [mjd_exact rnd h hb j1 j2]
  have t := timedeltaRounded_err rnd h (j - 2400000.5)
  have u : (usDay : ℝ) = 86400000000 := by unfold usDay; norm_num
  have hm : (date2jd d - 2400000.5) * usDay = ((d - d % 1000000 - datetime 1858 11 17 0 0 0 : ℤ) : ℝ) := by
    rw [date2jd_eq]
    have h1 := epochs.1
    have h2 : datetime 1858 11 17 0 0 0 = datetime 2000 1 1 12 0 0 - (51544 * usDay + usDay / 2) := by omega
    rw [h2]
    unfold usDay
    push_cast
    norm_num
    ring
  have eq : ((datetime 1858 11 17 0 0 0 + timedeltaRounded rnd (j - 2400000.5) - (d - d % 1000000) : ℤ) : ℝ) =
      ((timedeltaRounded rnd (j - 2400000.5) : ℝ) - (j - 2400000.5) * usDay) + (j - date2jd d) * usDay := by
    have : (j - date2jd d) * usDay = (j - 2400000.5) * usDay - (date2jd d - 2400000.5) * usDay := by ring
    rw [this, hm]
    push_cast
    ring
  rw [eq]
  refine (abs_add_le _ _).trans ?_
  rw [abs_mul, u, abs_of_pos (by norm_num : (0 : ℝ) < 86400000000)]
  rw [u] at t
  have := mul_le_mul_of_nonneg_right e (by norm_num : (0 : ℝ) ≤ 86400000000)
  norm_num at *
  linarith

theorem date2jd_lt {d : ℤ} (h2 : d < datetime 10000 1 1 0 0 0) : date2jd d + 1 ≤ 2 ^ (53 + -30 : ℤ) := by
  rw [date2jd_eq]
  have e0 : datetime 2000 1 1 12 0 0 = 730120 * usDay + 43200 * 1000000 := by decide
  have e2 : datetime 10000 1 1 0 0 0 = 3652060 * usDay := by decide
  rw [e2] at h2
  rw [e0]
  have : d - d % 1000000 - (730120 * usDay + 43200 * 1000000) ≤ 2921940 * usDay := by unfold usDay at *; omega
  have h3 : ((d - d % 1000000 - (730120 * usDay + 43200 * 1000000) : ℤ) : ℝ) / usDay ≤ 2921940 := by
    rw [div_le_iff₀ (by unfold usDay; norm_num)]
    exact_mod_cast this
  norm_num at h3 ⊢
  linarith

/-- C188: with rounding, every date comes back from its Julian date within 40 microseconds of its whole seconds. -/
theorem C188_near_partial (rnd : ℝ → ℝ) (h : RoundsToNearest rnd) (d : ℤ) (h1 : datetime 1 1 1 0 0 0 ≤ d) (h2 : d < datetime 10000 1 1 0 0 0) :
    |jd2dateRounded rnd (date2jdRounded rnd d) - (d - d % 1000000)| ≤ 40 := by
  have e := jd2dateRounded_err rnd h d (-30) h1 h2 (date2jd_lt h2)
  have e2 : ((|jd2dateRounded rnd (date2jdRounded rnd d) - (d - d % 1000000)| : ℤ) : ℝ) < 41 := by
    rw [Int.cast_abs]
    refine e.trans_lt ?_
    norm_num
  have : |jd2dateRounded rnd (date2jdRounded rnd d) - (d - d % 1000000)| < 41 := by exact_mod_cast e2
  omega

/-- C188: before the year 6700 it is within 20 microseconds. -/
theorem C188_nearer_partial (rnd : ℝ → ℝ) (h : RoundsToNearest rnd) (d : ℤ) (h1 : datetime 1 1 1 0 0 0 ≤ d) (h2 : d < datetime 6700 1 1 0 0 0) :
    |jd2dateRounded rnd (date2jdRounded rnd d) - (d - d % 1000000)| ≤ 20 := by
  have e3 : datetime 6700 1 1 0 0 0 ≤ datetime 10000 1 1 0 0 0 := by decide
  have hk : date2jd d + 1 ≤ 2 ^ (53 + -31 : ℤ) := by
    rw [date2jd_eq]
    have e0 : datetime 2000 1 1 12 0 0 = 730120 * usDay + 43200 * 1000000 := by decide
    have e2 : datetime 6700 1 1 0 0 0 ≤ 2447000 * usDay := by decide
    rw [e0]
    have : d - d % 1000000 - (730120 * usDay + 43200 * 1000000) ≤ 1742000 * usDay := by unfold usDay at *; omega
    have h3 : ((d - d % 1000000 - (730120 * usDay + 43200 * 1000000) : ℤ) : ℝ) / usDay ≤ 1742000 := by
      rw [div_le_iff₀ (by unfold usDay; norm_num)]
      exact_mod_cast this
    norm_num at h3 ⊢
    linarith
  have e := jd2dateRounded_err rnd h d (-31) h1 (h2.trans_le e3) hk
  have e2 : ((|jd2dateRounded rnd (date2jdRounded rnd d) - (d - d % 1000000)| : ℤ) : ℝ) < 21 := by
    rw [Int.cast_abs]
    refine e.trans_lt ?_
    norm_num
  have : |jd2dateRounded rnd (date2jdRounded rnd d) - (d - d % 1000000)| < 21 := by exact_mod_cast e2
  omega

/-- C188: Julian dates depend on whole seconds only and increase with them, rounding or not. -/
theorem C188_increasing (rnd : ℝ → ℝ) (h : RoundsToNearest rnd) (d d' : ℤ) (h1 : datetime 1 1 1 0 0 0 ≤ d) (h2 : d < datetime 10000 1 1 0 0 0) (h1' : datetime 1 1 1 0 0 0 ≤ d') (h2' : d' < datetime 10000 1 1 0 0 0) :
    date2jdRounded rnd d < date2jdRounded rnd d' ↔ d / 1000000 < d' / 1000000 := by
  have key : ∀ d d' : ℤ, datetime 1 1 1 0 0 0 ≤ d → d < datetime 10000 1 1 0 0 0 → datetime 1 1 1 0 0 0 ≤ d' → d' < datetime 10000 1 1 0 0 0 → d / 1000000 < d' / 1000000 → date2jdRounded rnd d < date2jdRounded rnd d' := by
    intro d d' h1 h2 h1' h2' hlt
    have a := (date2jdRounded_err rnd h d (-30) h1 h2 (date2jd_lt h2)).1
    have b := (date2jdRounded_err rnd h d' (-30) h1' h2' (date2jd_lt h2')).1
    have c : date2jd d + 1 / 86400 ≤ date2jd d' := by
      rw [date2jd_eq, date2jd_eq]
      have : d - d % 1000000 - datetime 2000 1 1 12 0 0 + 1000000 ≤ d' - d' % 1000000 - datetime 2000 1 1 12 0 0 := by omega
      have h3 : ((d - d % 1000000 - datetime 2000 1 1 12 0 0 : ℤ) : ℝ) + 1000000 ≤ ((d' - d' % 1000000 - datetime 2000 1 1 12 0 0 : ℤ) : ℝ) := by exact_mod_cast this
      have u : (usDay : ℝ) = 86400000000 := by unfold usDay; norm_num
      rw [u]
      linarith
    obtain ⟨-, a2⟩ := abs_le.1 a
    obtain ⟨b1, -⟩ := abs_le.1 b
    norm_num at a2 b1 c
    linarith
  refine ⟨fun hlt => ?_, key d d' h1 h2 h1' h2'⟩
  by_contra hc
  rcases (not_lt.1 hc).lt_or_eq with h3 | h3
  · exact absurd (key d' d h1' h2' h1 h2 h3) (not_lt.2 hlt.le)
  · have e0 : datetime 2000 1 1 12 0 0 = 730120 * usDay + 43200 * 1000000 := by decide
    have : date2jdRounded rnd d = date2jdRounded rnd d' := by
      unfold date2jdRounded
      simp only
      have q : (d - datetime 2000 1 1 12 0 0) / usDay = (d' - datetime 2000 1 1 12 0 0) / usDay := by rw [e0]; unfold usDay; omega
      have r : (d - datetime 2000 1 1 12 0 0) % usDay / 1000000 = (d' - datetime 2000 1 1 12 0 0) % usDay / 1000000 := by rw [e0]; unfold usDay; omega
      rw [q, r]
    exact absurd this hlt.ne

/-- C188 is false as stated: one second after noon of 1 January 2000 comes back 5 microseconds early, with 0 in the place of the second. -/
theorem C188_roundtrip_violated (rnd : ℝ → ℝ) (h : RoundsToNearest rnd) : jd2dateRounded rnd (date2jdRounded rnd (datetime 2000 1 1 12 0 1)) = datetime 2000 1 1 12 0 0 + 999995 := by
  have e1 : datetime 2000 1 1 12 0 1 - datetime 2000 1 1 12 0 0 = 1000000 := by decide
  have hf := h.err (1 / 86400)
  have f2 := abs_le.1 hf
  have hjd : date2jdRounded rnd (datetime 2000 1 1 12 0 1) = 2451545 + 24855 / 2 ^ 31 := by
    unfold date2jdRounded
    simp only
    rw [e1, show (1000000 : ℤ) / usDay = 0 by decide, show (1000000 : ℤ) % usDay / 1000000 = 1 by decide]
    have a : rnd (2451545.0 + ((0 : ℤ) : ℝ)) = 2451545 := by
      have := h.fix (isBinary_int 2451545 (by norm_num))
      norm_num at this ⊢
      exact this
    have b : (((1 : ℤ) : ℝ) / 86400.0) = 1 / 86400 := by norm_num
    rw [a, b]
    set f := rnd (1 / 86400)
    have hb2 : IsBinary (2451545 + 24855 / 2 ^ 31 : ℝ) := ⟨2451545 * 2 ^ 31 + 24855, -31, by norm_num, by norm_num⟩
    have near := h.nearest (2451545 + f) _ hb2
    have hge : (2 : ℝ) ^ 21 ≤ rnd (2451545 + f) := by
      apply h.ge ⟨1, 21, by norm_num, by norm_num⟩
      norm_num at f2 ⊢
      linarith
    have hg : OnGrid (-31) (rnd (2451545 + f)) := by
      apply (h.binary _).onGrid
      rw [abs_of_nonneg (by linarith [show (0 : ℝ) < 2 ^ 21 by norm_num])]
      norm_num at hge ⊢
      exact hge
    obtain ⟨n, hn⟩ := hg
    rw [hn] at near ⊢
    have hn2 : |(2451545 + f) - (2451545 + 24855 / 2 ^ 31)| ≤ 1 / 2 ^ 33 := by
      norm_num at f2
      refine abs_le.2 ⟨?_, ?_⟩ <;> norm_num <;> linarith
    obtain ⟨n1, n2⟩ := abs_le.1 (near.trans hn2)
    obtain ⟨m1, m2⟩ := abs_le.1 hn2
    have l1 : (2451545 * 2 ^ 31 + 24855 - 1 : ℝ) < n := by norm_num at *; linarith
    have l2 : (n : ℝ) < 2451545 * 2 ^ 31 + 24855 + 1 := by norm_num at *; linarith
    have l1' : (2451545 * 2 ^ 31 + 24855 - 1 : ℤ) < n := by exact_mod_cast l1
    have l2' : n < (2451545 * 2 ^ 31 + 24855 + 1 : ℤ) := by exact_mod_cast l2
    have : n = 2451545 * 2 ^ 31 + 24855 := by omega
    rw [this]
    norm_num
  unfold jd2dateRounded
  simp only
  have hb : IsBinary (date2jdRounded rnd (datetime 2000 1 1 12 0 1)) := h.binary _
  rw [mjd_exact rnd h hb (by rw [hjd]; norm_num) (by rw [hjd]; norm_num), hjd]
  have e : (2451545 + 24855 / 2 ^ 31 - 2400000.5 : ℝ) = 51544.5 + 24855 / 2 ^ 31 := by norm_num
  rw [e]
  have t := timedeltaRounded_err rnd h (51544.5 + 24855 / 2 ^ 31)
  have u : (usDay : ℝ) = 86400000000 := by unfold usDay; norm_num
  rw [u] at t
  obtain ⟨t1, t2⟩ := abs_le.1 t
  have l1 : (51544 * 86400000000 + 43200999994 : ℝ) < timedeltaRounded rnd (51544.5 + 24855 / 2 ^ 31) := by norm_num at *; linarith
  have l2 : (timedeltaRounded rnd (51544.5 + 24855 / 2 ^ 31) : ℝ) < 51544 * 86400000000 + 43200999996 := by norm_num at *; linarith
  have l1' : (51544 * 86400000000 + 43200999994 : ℤ) < timedeltaRounded rnd (51544.5 + 24855 / 2 ^ 31) := by exact_mod_cast l1
  have l2' : timedeltaRounded rnd (51544.5 + 24855 / 2 ^ 31) < (51544 * 86400000000 + 43200999996 : ℤ) := by exact_mod_cast l2
  have := epochs.1
  unfold usDay at this
  omega

/-- The hypotheses can be met: a date of the 20th century and one of the 80th. -/
example : (∃ rnd, RoundsToNearest rnd) ∧ datetime 1 1 1 0 0 0 ≤ datetime 1995 10 6 7 8 9 ∧ datetime 1995 10 6 7 8 9 < datetime 6700 1 1 0 0 0 ∧ datetime 7999 2 28 1 2 3 < datetime 10000 1 1 0 0 0 :=
  ⟨exists_rounding, by decide, by decide, by decide⟩

end Radvel
