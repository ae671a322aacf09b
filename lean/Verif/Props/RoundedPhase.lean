import Verif.Model.RoundedPhase
import Verif.Model.Phase
import Verif.Spec.RoundedPhase
import Mathlib.Data.Int.Log
import Mathlib.Algebra.Order.Round
import Mathlib.Algebra.Order.Archimedean.Real.Basic
import Mathlib.Tactic.Linarith
import Mathlib.Tactic.FieldSimp
import Mathlib.Tactic.Positivity
import Mathlib.Tactic.NormNum

/-!
# Phases in floating point (C185)
-/

namespace Radvel

/-! ## floating-point numbers -/

theorem two_zpow_pos (e : ℤ) : (0 : ℝ) < 2 ^ e := by positivity

theorem isBinary_zero : IsBinary 0 := ⟨0, 0, by norm_num, by norm_num⟩
theorem isBinary_one : IsBinary 1 := ⟨1, 0, by norm_num, by norm_num⟩
theorem isBinary_two : IsBinary 2 := ⟨2, 0, by norm_num, by norm_num⟩

theorem RoundsToNearest.fix {rnd : ℝ → ℝ} (h : RoundsToNearest rnd) {x : ℝ} (hx : IsBinary x) : rnd x = x := by
  have := h.nearest x x hx
  rw [sub_self, abs_zero] at this
  have := abs_nonpos_iff.1 this
  linarith

theorem RoundsToNearest.ge {rnd : ℝ → ℝ} (h : RoundsToNearest rnd) {a x : ℝ} (ha : IsBinary a) (hx : a ≤ x) : a ≤ rnd x := by
  by_contra hc
  push Not at hc
  have := h.nearest x a ha
  rw [abs_of_pos (by linarith), abs_of_nonneg (by linarith)] at this
  linarith

theorem RoundsToNearest.le {rnd : ℝ → ℝ} (h : RoundsToNearest rnd) {b x : ℝ} (hb : IsBinary b) (hx : x ≤ b) : rnd x ≤ b := by
  by_contra hc
  push Not at hc
  have := h.nearest x b hb
  rw [abs_sub_comm, abs_of_pos (by linarith), abs_sub_comm, abs_of_nonneg (by linarith)] at this
  linarith

/-- Multiples of a power of two that are not too large are floating-point numbers. -/
theorem OnGrid.isBinary {e : ℤ} {x : ℝ} (h : OnGrid e x) (hx : |x| ≤ 2 ^ (53 + e)) : IsBinary x := by
  obtain ⟨n, rfl⟩ := h
  refine ⟨n, e, ?_, rfl⟩
  rw [abs_mul, abs_of_pos (two_zpow_pos e), zpow_add₀ (by norm_num)] at hx
  have := le_of_mul_le_mul_right hx (two_zpow_pos e)
  have h2 : ((|n| : ℤ) : ℝ) ≤ ((2 ^ 53 : ℤ) : ℝ) := by
    rw [Int.cast_abs]
    refine this.trans (le_of_eq ?_)
    norm_num
  exact_mod_cast h2

/-- A floating-point number of at least `2 ^ (52 + e)` is a multiple of `2 ^ e`. -/
theorem IsBinary.onGrid {e : ℤ} {x : ℝ} (h : IsBinary x) (hx : 2 ^ (52 + e) ≤ |x|) : OnGrid e x := by
  obtain ⟨m, f, hm, rfl⟩ := h
  have hm' : |(m : ℝ)| ≤ 2 ^ (53 : ℤ) := by exact_mod_cast hm
  rw [abs_mul, abs_of_pos (two_zpow_pos f)] at hx
  rcases le_or_gt e f with hf | hf
  · refine ⟨m * 2 ^ (f - e).toNat, ?_⟩
    have h1 : ((2 : ℝ) ^ (f - e).toNat) = 2 ^ (f - e) := by
      rw [← zpow_natCast, Int.toNat_of_nonneg (by omega)]
    push_cast
    rw [h1, mul_assoc, ← zpow_add₀ (by norm_num : (2 : ℝ) ≠ 0)]
    congr 2
    ring
  · have h3 : |(m : ℝ)| * 2 ^ f ≤ 2 ^ (53 : ℤ) * 2 ^ f := mul_le_mul_of_nonneg_right hm' (two_zpow_pos f).le
    rw [← zpow_add₀ (by norm_num : (2 : ℝ) ≠ 0)] at h3
    have h4 : (2 : ℝ) ^ (52 + e) ≤ 2 ^ (53 + f) := hx.trans h3
    have h5 : 52 + e ≤ 53 + f := (zpow_le_zpow_iff_right₀ (by norm_num : (1 : ℝ) < 2)).1 h4
    have h6 : f = e - 1 := by omega
    subst h6
    have h7 : (2 : ℝ) ^ (53 : ℤ) * 2 ^ (e - 1) ≤ |(m : ℝ)| * 2 ^ (e - 1) := by
      rw [← zpow_add₀ (by norm_num : (2 : ℝ) ≠ 0)]
      refine le_trans (le_of_eq ?_) hx
      congr 1
      ring
    have h8 := le_of_mul_le_mul_right h7 (two_zpow_pos (e - 1))
    have h9 : |(m : ℝ)| = 2 ^ (53 : ℤ) := le_antisymm hm' h8
    have h10 : |m| = 2 ^ 53 := by
      have : ((|m| : ℤ) : ℝ) = ((2 ^ 53 : ℤ) : ℝ) := by
        rw [Int.cast_abs, h9]
        norm_num
      exact_mod_cast this
    have he : (2 : ℝ) ^ (e - 1) = 2 ^ e / 2 := by rw [zpow_sub₀ (by norm_num), zpow_one]
    rcases abs_eq (by norm_num : (0 : ℤ) ≤ 2 ^ 53) |>.1 h10 with h | h
    · refine ⟨2 ^ 52, ?_⟩
      rw [h, he]
      push_cast
      ring
    · refine ⟨-2 ^ 52, ?_⟩
      rw [h, he]
      push_cast
      ring

theorem OnGrid.finer {e f : ℤ} {x : ℝ} (h : OnGrid e x) (hf : f ≤ e) : OnGrid f x := by
  obtain ⟨n, rfl⟩ := h
  refine ⟨n * 2 ^ (e - f).toNat, ?_⟩
  have h1 : ((2 : ℝ) ^ (e - f).toNat) = 2 ^ (e - f) := by
    rw [← zpow_natCast, Int.toNat_of_nonneg (by omega)]
  push_cast
  rw [h1, mul_assoc, ← zpow_add₀ (by norm_num : (2 : ℝ) ≠ 0)]
  congr 2
  ring

theorem OnGrid.sub {e : ℤ} {x y : ℝ} (hx : OnGrid e x) (hy : OnGrid e y) : OnGrid e (x - y) := by
  obtain ⟨n, rfl⟩ := hx
  obtain ⟨m, rfl⟩ := hy
  exact ⟨n - m, by push_cast; ring⟩

theorem OnGrid.add {e : ℤ} {x y : ℝ} (hx : OnGrid e x) (hy : OnGrid e y) : OnGrid e (x + y) := by
  obtain ⟨n, rfl⟩ := hx
  obtain ⟨m, rfl⟩ := hy
  exact ⟨n + m, by push_cast; ring⟩

theorem OnGrid.mul_int {e : ℤ} {x : ℝ} (hx : OnGrid e x) (k : ℤ) : OnGrid e (x * k) := by
  obtain ⟨n, rfl⟩ := hx
  exact ⟨n * k, by push_cast; ring⟩

/-- The size of a number: the power of two below it. -/
theorem exists_size {x : ℝ} (hx : x ≠ 0) : ∃ k : ℤ, (2 : ℝ) ^ (52 + k) ≤ |x| ∧ |x| < 2 ^ (53 + k) := by
  refine ⟨Int.log 2 |x| - 52, ?_, ?_⟩
  · have := Int.zpow_log_le_self (b := 2) (by norm_num) (abs_pos.2 hx)
    rw [show (52 : ℤ) + (Int.log 2 |x| - 52) = Int.log 2 |x| by ring]
    exact_mod_cast this
  · have := Int.lt_zpow_succ_log_self (b := 2) (by norm_num) |x|
    rw [show (53 : ℤ) + (Int.log 2 |x| - 52) = Int.log 2 |x| + 1 by ring]
    exact_mod_cast this

/-- The nearest multiple of `2 ^ k`. -/
theorem round_grid (k : ℤ) (x : ℝ) : OnGrid k (round (x / 2 ^ k) * 2 ^ k) ∧ |x - round (x / 2 ^ k) * 2 ^ k| ≤ 2 ^ k / 2 ∧ ∀ y, OnGrid k y → |x - round (x / 2 ^ k) * 2 ^ k| ≤ |x - y| := by
  have hk := two_zpow_pos k
  have e1 : ∀ n : ℤ, |x - n * 2 ^ k| = |x / 2 ^ k - n| * 2 ^ k := by
    intro n
    rw [← abs_of_pos hk, ← abs_mul, abs_of_pos hk]
    congr 1
    field_simp
  refine ⟨⟨_, rfl⟩, ?_, ?_⟩
  · rw [e1]
    have := abs_sub_round (x / 2 ^ k)
    nlinarith
  · rintro y ⟨n, rfl⟩
    rw [e1, e1]
    exact mul_le_mul_of_nonneg_right (round_le _ _) hk.le

theorem abs_le_grid {k : ℤ} {x : ℝ} (hx : |x| ≤ 2 ^ (53 + k)) : |round (x / 2 ^ k) * (2 : ℝ) ^ k| ≤ 2 ^ (53 + k) := by
  have hk := two_zpow_pos k
  have h1 : |x / 2 ^ k| ≤ ((2 ^ 53 : ℤ) : ℝ) := by
    rw [abs_div, abs_of_pos hk, div_le_iff₀ hk]
    rw [zpow_add₀ (by norm_num)] at hx
    exact_mod_cast hx
  rw [abs_le] at h1
  have h2 : round (x / 2 ^ k) ≤ 2 ^ 53 := by
    have := Int.floor_le_floor (add_le_add_left h1.2 (1 / 2))
    rw [← round_eq, ← round_eq, round_intCast] at this
    exact this
  have h3 : -2 ^ 53 ≤ round (x / 2 ^ k) := by
    have h := h1.1
    rw [← Int.cast_neg] at h
    have := Int.floor_le_floor (add_le_add_left h (1 / 2))
    rw [← round_eq, ← round_eq, round_intCast] at this
    exact this
  rw [abs_mul, abs_of_pos hk, zpow_add₀ (by norm_num)]
  refine mul_le_mul_of_nonneg_right ?_ hk.le
  have : |round (x / 2 ^ k)| ≤ 2 ^ 53 := abs_le.2 ⟨h3, h2⟩
  have h4 : ((|round (x / 2 ^ k)| : ℤ) : ℝ) ≤ ((2 ^ 53 : ℤ) : ℝ) := by exact_mod_cast this
  rw [Int.cast_abs] at h4
  refine h4.trans (le_of_eq ?_)
  norm_num

/-- The relative error of rounding. -/
theorem RoundsToNearest.err {rnd : ℝ → ℝ} (h : RoundsToNearest rnd) (x : ℝ) : |x - rnd x| ≤ |x| / 2 ^ 53 := by
  by_cases hx : x = 0
  · rw [hx, h.fix isBinary_zero]; norm_num
  obtain ⟨k, h1, h2⟩ := exists_size hx
  obtain ⟨g1, g2, _⟩ := round_grid k x
  refine (h.nearest x _ (g1.isBinary (abs_le_grid h2.le))).trans (g2.trans ?_)
  rw [zpow_add₀ (by norm_num)] at h1
  rw [le_div_iff₀ (by norm_num)]
  norm_num at h1 ⊢
  linarith

/-- There is such a rounding. -/
theorem exists_rounding : ∃ rnd, RoundsToNearest rnd := by
  have key : ∀ x : ℝ, ∃ z, IsBinary z ∧ ∀ y, IsBinary y → |x - z| ≤ |x - y| := by
    intro x
    by_cases hx : x = 0
    · exact ⟨0, isBinary_zero, fun y _ => by rw [hx, sub_self, abs_zero]; exact abs_nonneg _⟩
    obtain ⟨k, h1, h2⟩ := exists_size hx
    obtain ⟨g1, g2, g3⟩ := round_grid k x
    refine ⟨_, g1.isBinary (abs_le_grid h2.le), fun y hy => ?_⟩
    rcases le_or_gt (2 ^ (52 + k)) |y| with hc | hc
    · exact g3 y (hy.onGrid hc)
    · -- the power of two towards 0 from `x` is nearer than `y`
      have hg : OnGrid k ((2 : ℝ) ^ (52 + k)) := ⟨2 ^ 52, by rw [zpow_add₀ (by norm_num)]; norm_num⟩
      have hy := abs_lt.1 hc
      rcases le_total 0 x with hs | hs
      · rw [abs_of_nonneg hs] at h1
        refine (g3 _ hg).trans ?_
        rw [abs_of_nonneg (by linarith), abs_of_nonneg (by linarith)]
        linarith
      · rw [abs_of_nonpos hs] at h1
        have hg' : OnGrid k (-(2 : ℝ) ^ (52 + k)) := by
          obtain ⟨n, hn⟩ := hg
          exact ⟨-n, by rw [hn]; push_cast; ring⟩
        refine (g3 _ hg').trans ?_
        rw [abs_of_nonpos (by linarith), abs_of_nonpos (by linarith)]
        linarith
  choose rnd h using key
  exact ⟨rnd, fun x => (h x).1, fun x => (h x).2⟩

/-! ## remainders -/

/-- `fmod` for a positive period: of the sign of its first argument and smaller than the period. -/
theorem fmod_bounds {a P : ℝ} (hP : 0 < P) : (0 ≤ a → 0 ≤ a - P * truncInt (a / P) ∧ a - P * truncInt (a / P) < P) ∧ (a < 0 → -P < a - P * truncInt (a / P) ∧ a - P * truncInt (a / P) ≤ 0) := by
  have e : a = P * (a / P) := by field_simp
  unfold truncInt
  constructor
  · intro h
    rw [if_pos (div_nonneg h hP.le)]
    have h1 := Int.floor_le (a / P)
    have h2 := Int.lt_floor_add_one (a / P)
    constructor <;> nlinarith
  · intro h
    rw [if_neg (not_le.2 (div_neg_of_neg_of_pos h hP))]
    have h1 := Int.le_ceil (a / P)
    have h2 := Int.ceil_lt_add_one (a / P)
    constructor <;> nlinarith

theorem modRounded_cases (rnd : ℝ → ℝ) {a P : ℝ} (hP : 0 < P) :
    let r := a - P * truncInt (a / P)
    (0 ≤ r ∧ r < P ∧ modRounded rnd a P = r) ∨ (-P < r ∧ r < 0 ∧ modRounded rnd a P = rnd (r + P)) := by
  intro r
  obtain ⟨h1, h2⟩ := fmod_bounds (a := a) hP
  by_cases hr : r < 0
  · have ha : a < 0 := by
      by_contra hc
      exact absurd (h1 (not_lt.1 hc)).1 (not_le.2 hr)
    refine .inr ⟨(h2 ha).1, hr, if_pos ⟨hr.ne, ?_⟩⟩
    intro h
    exact absurd (h.1 hr) (not_lt.2 hP.le)
  · refine .inl ⟨not_lt.1 hr, ?_, if_neg ?_⟩
    · rcases le_or_gt 0 a with ha | ha
      · exact (h1 ha).2
      · exact (h2 ha).2.trans_lt hP
    · rintro ⟨_, h⟩
      exact h ⟨fun h => absurd h hr, fun h => absurd h (not_lt.2 hP.le)⟩

/-- C185: whatever the time, the phase is between 0 and 1, 1 included, and on the circle it is the exact phase up to two rounding errors and one more for every period between `tc` and the time. -/
theorem C185_phase (rnd : ℝ → ℝ) (h : RoundsToNearest rnd) (tc P t : ℝ) (hP : 0 < P) (hb : IsBinary P) :
    ∃ φ, phaseRounded rnd tc P t = some φ ∧ 0 ≤ φ ∧ φ ≤ 1 ∧ ∃ n : ℤ, |φ + n - (t - tc) / P| ≤ (|t - tc| / P + 2) / 2 ^ 53 := by
  refine ⟨_, if_neg hP.ne', ?_⟩
  set d := rnd (t - tc) with hd
  set m := modRounded rnd d P with hm
  obtain ⟨hm0, hm1, n, hn⟩ : 0 ≤ m ∧ m ≤ P ∧ ∃ n : ℤ, |m + n * P - d| ≤ P / 2 ^ 53 := by
    rcases modRounded_cases rnd (a := d) hP with ⟨a1, a2, a3⟩ | ⟨a1, a2, a3⟩
    · rw [hm, a3]
      refine ⟨a1, a2.le, truncInt (d / P), ?_⟩
      rw [show d - P * (truncInt (d / P) : ℝ) + truncInt (d / P) * P - d = 0 by ring, abs_zero]
      positivity
    · rw [hm, a3]
      refine ⟨h.ge isBinary_zero (by linarith), h.le hb (by linarith), truncInt (d / P) - 1, ?_⟩
      have := h.err (d - P * (truncInt (d / P) : ℝ) + P)
      rw [abs_of_pos (show 0 < d - P * (truncInt (d / P) : ℝ) + P by linarith), abs_sub_comm] at this
      push_cast
      rw [show rnd (d - P * (truncInt (d / P) : ℝ) + P) + (truncInt (d / P) - 1) * P - d = rnd (d - P * (truncInt (d / P) : ℝ) + P) - (d - P * (truncInt (d / P) : ℝ) + P) by ring]
      refine this.trans (div_le_div_of_nonneg_right ?_ (by norm_num))
      linarith
  have q0 : 0 ≤ m / P := div_nonneg hm0 hP.le
  have q1 : m / P ≤ 1 := (div_le_one hP).2 hm1
  refine ⟨h.ge isBinary_zero q0, h.le isBinary_one q1, n, ?_⟩
  have e1 := h.err (m / P)
  rw [abs_of_nonneg q0, abs_sub_comm] at e1
  have e2 : |m / P + n - d / P| ≤ 1 / 2 ^ 53 := by
    rw [show m / P + n - d / P = (m + n * P - d) / P by field_simp, abs_div, abs_of_pos hP, div_le_iff₀ hP]
    linarith
  have e3 : |d / P - (t - tc) / P| ≤ |t - tc| / P / 2 ^ 53 := by
    rw [← sub_div, abs_div, abs_of_pos hP, div_right_comm, abs_sub_comm]
    exact div_le_div_of_nonneg_right (h.err (t - tc)) hP.le
  have e4 : rnd (m / P) + n - (t - tc) / P = (rnd (m / P) - m / P) + (m / P + n - d / P) + (d / P - (t - tc) / P) := by ring
  rw [e4]
  refine (abs_add_le _ _).trans ((add_le_add (abs_add_le _ _) le_rfl).trans ?_)
  have e5 : m / P / 2 ^ 53 ≤ 1 / 2 ^ 53 := div_le_div_of_nonneg_right q1 (by norm_num)
  have e6 : (|t - tc| / P + 2) / 2 ^ 53 = 1 / 2 ^ 53 + 1 / 2 ^ 53 + |t - tc| / P / (2 : ℝ) ^ 53 := by ring
  rw [e6]
  linarith

/-- A positive floating-point number as a multiple of its last digit. -/
theorem IsBinary.digits {P : ℝ} (hb : IsBinary P) (hP : 0 < P) : ∃ f : ℤ, OnGrid f P ∧ 2 ^ (52 + f) < P ∧ P ≤ 2 ^ (53 + f) := by
  obtain ⟨k, h1, h2⟩ := exists_size hP.ne'
  rw [abs_of_pos hP] at h1 h2
  rcases h1.lt_or_eq with h | h
  · exact ⟨k, hb.onGrid (by rw [abs_of_pos hP]; exact h1), h, h2.le⟩
  · refine ⟨k - 1, (hb.onGrid (by rw [abs_of_pos hP]; exact h1)).finer (by omega), ?_, ?_⟩
    · rw [← h]
      exact zpow_lt_zpow_right₀ (by norm_num) (by omega)
    · rw [← h]
      exact le_of_eq (by congr 1; ring)

theorem RoundsToNearest.onGrid {rnd : ℝ → ℝ} (h : RoundsToNearest rnd) {e : ℤ} {x : ℝ} (hx : OnGrid e x) : OnGrid e (rnd x) := by
  rcases le_or_gt |x| (2 ^ (53 + e)) with hc | hc
  · rw [h.fix (hx.isBinary hc)]; exact hx
  · have hb : IsBinary ((2 : ℝ) ^ (53 + e)) := ⟨1, 53 + e, by norm_num, by norm_num⟩
    have hb' : IsBinary (-(2 : ℝ) ^ (53 + e)) := ⟨-1, 53 + e, by norm_num, by norm_num⟩
    have h2 : (2 : ℝ) ^ (52 + e) ≤ 2 ^ (53 + e) := zpow_le_zpow_right₀ (by norm_num) (by omega)
    refine (h.binary x).onGrid ?_
    rcases le_or_gt 0 x with hs | hs
    · rw [abs_of_nonneg hs] at hc
      exact h2.trans ((h.ge hb hc.le).trans (le_abs_self _))
    · rw [abs_of_neg hs] at hc
      have := h.le hb' (show x ≤ -(2 : ℝ) ^ (53 + e) by linarith)
      exact h2.trans ((show (2 : ℝ) ^ (53 + e) ≤ -rnd x by linarith).trans (neg_le_abs _))

/-- C185: phases are below 1 if time and ephemeris are given to the same last digit `2 ^ e` and the period is not above `2 ^ (53 + e)`. Floating-point Julian dates above `2 ^ 21` have the last digit `2 ^ (-31)`, so this holds for periods up to 4 million
days (missing: times with finer digits, `C185_one_violated`). -/
theorem C185_below_one_partial (rnd : ℝ → ℝ) (h : RoundsToNearest rnd) (e : ℤ) (tc P t : ℝ) (ht : OnGrid e t) (htc : OnGrid e tc) (hP : 0 < P) (hb : IsBinary P) (hPe : P ≤ 2 ^ (53 + e)) :
    ∃ φ, phaseRounded rnd tc P t = some φ ∧ 0 ≤ φ ∧ φ < 1 := by
  obtain ⟨φ, h1, h2, _⟩ := C185_phase rnd h tc P t hP hb
  refine ⟨φ, h1, h2, ?_⟩
  obtain ⟨f, f1, f2, f3⟩ := hb.digits hP
  have hfe : f ≤ e := by
    have : (2 : ℝ) ^ (52 + f) < 2 ^ (53 + e) := f2.trans_le hPe
    have := (zpow_lt_zpow_iff_right₀ (by norm_num : (1 : ℝ) < 2)).1 this
    omega
  have hd : OnGrid f (rnd (t - tc)) := (h.onGrid (ht.sub htc)).finer hfe
  have hr : OnGrid f (rnd (t - tc) - P * truncInt (rnd (t - tc) / P)) := hd.sub (f1.mul_int _)
  have hm : OnGrid f (modRounded rnd (rnd (t - tc)) P) ∧ modRounded rnd (rnd (t - tc)) P < P := by
    rcases modRounded_cases rnd (a := rnd (t - tc)) hP with ⟨a1, a2, a3⟩ | ⟨a1, a2, a3⟩
    · rw [a3]; exact ⟨hr, a2⟩
    · have hg := hr.add f1
      have := h.fix (hg.isBinary (by rw [abs_of_pos (by linarith)]; linarith))
      rw [a3, this]
      exact ⟨hg, by linarith⟩
  obtain ⟨⟨k, hk⟩, hlt⟩ := hm
  obtain ⟨p, hp⟩ := f1
  have hfp := two_zpow_pos f
  have hkp : k + 1 ≤ p := by
    rw [hk, hp] at hlt
    have := lt_of_mul_lt_mul_right hlt hfp.le
    exact_mod_cast this
  have hgap : modRounded rnd (rnd (t - tc)) P ≤ P - 2 ^ f := by
    rw [hk, hp]
    have : ((k + 1 : ℤ) : ℝ) ≤ p := by exact_mod_cast hkp
    push_cast at this
    nlinarith
  have hq : modRounded rnd (rnd (t - tc)) P / P ≤ 1 - 1 / 2 ^ 53 := by
    rw [div_le_iff₀ hP]
    rw [zpow_add₀ (by norm_num)] at f3
    have : P / 2 ^ 53 ≤ 2 ^ f := by
      rw [div_le_iff₀ (by norm_num)]
      norm_num at f3 ⊢
      linarith
    have e1 : (1 - 1 / 2 ^ 53) * P = P - P / 2 ^ 53 := by ring
    rw [e1]
    linarith
  have hbin : IsBinary (1 - 1 / 2 ^ 53 : ℝ) := ⟨2 ^ 53 - 1, -53, by norm_num, by norm_num⟩
  have := h.le hbin hq
  unfold phaseRounded at h1
  rw [if_neg hP.ne'] at h1
  cases h1
  refine this.trans_lt ?_
  norm_num

/-- C185 in full is false: shortly before `tc` the phase is 1, not a number below 1. -/
theorem C185_one_violated (rnd : ℝ → ℝ) (h : RoundsToNearest rnd) (tc P t : ℝ) (hP : 0 < P) (hb : IsBinary P) (hd : IsBinary (t - tc)) (h0 : t < tc) (h1 : tc - t < P / 2 ^ 54) :
    phaseRounded rnd tc P t = some 1 := by
  unfold phaseRounded
  rw [if_neg hP.ne', h.fix hd]
  have hlt : P / 2 ^ 54 < P := by
    rw [div_lt_iff₀ (by norm_num)]
    nlinarith
  have htr : truncInt ((t - tc) / P) = 0 := by
    unfold truncInt
    rw [if_neg (not_le.2 (div_neg_of_neg_of_pos (by linarith) hP)), Int.ceil_eq_zero_iff]
    constructor
    · rw [lt_div_iff₀ hP]; linarith
    · exact (div_neg_of_neg_of_pos (by linarith) hP).le
  have hm : modRounded rnd (t - tc) P = P := by
    rcases modRounded_cases rnd (a := t - tc) hP with ⟨a1, _, _⟩ | ⟨_, _, a3⟩
    · rw [htr] at a1
      norm_num at a1
      linarith
    · rw [a3, htr]
      norm_num
      obtain ⟨f, f1, f2, f3⟩ := hb.digits hP
      have hup : rnd (t - tc + P) ≤ P := h.le hb (by linarith)
      by_contra hne
      have hl : rnd (t - tc + P) < P := lt_of_le_of_ne hup hne
      have hgrid : OnGrid f (rnd (t - tc + P)) := by
        refine (h.binary _).onGrid ?_
        refine le_trans (h.ge ⟨1, 52 + f, by norm_num, by norm_num⟩ ?_) (le_abs_self _)
        obtain ⟨p, hp⟩ := f1
        have hfp := two_zpow_pos f
        have : (2 : ℝ) ^ (52 + f) = 2 ^ 52 * 2 ^ f := by rw [zpow_add₀ (by norm_num)]; norm_num
        rw [this, hp] at f2
        have h2 : (2 : ℤ) ^ 52 + 1 ≤ p := by
          have := lt_of_mul_lt_mul_right f2 hfp.le
          have h3 : ((2 ^ 52 : ℤ) : ℝ) < p := by
            refine lt_of_eq_of_lt ?_ this
            norm_num
          have := Int.cast_lt.1 h3
          omega
        have h4 : ((2 ^ 52 + 1 : ℤ) : ℝ) ≤ p := by exact_mod_cast h2
        rw [show ((2 ^ 52 + 1 : ℤ) : ℝ) = 2 ^ 52 + 1 by norm_num] at h4
        have h5 : P / 2 ^ 54 ≤ 2 ^ f := by
          rw [div_le_iff₀ (by norm_num)]
          rw [zpow_add₀ (by norm_num)] at f3
          norm_num at f3 ⊢
          linarith
        have h6 : (2 ^ 52 + 1) * (2 : ℝ) ^ f ≤ P := by rw [hp]; exact mul_le_mul_of_nonneg_right h4 hfp.le
        rw [this]
        linarith
      obtain ⟨k, hk⟩ := hgrid
      obtain ⟨p, hp⟩ := f1
      have hfp := two_zpow_pos f
      have hkp : k + 1 ≤ p := by
        rw [hk, hp] at hl
        have := lt_of_mul_lt_mul_right hl hfp.le
        exact_mod_cast this
      have hgap : rnd (t - tc + P) ≤ P - 2 ^ f := by
        rw [hk, hp]
        have : ((k + 1 : ℤ) : ℝ) ≤ p := by exact_mod_cast hkp
        push_cast at this
        nlinarith
      have h5 : P / 2 ^ 54 ≤ 2 ^ f / 2 := by
        rw [div_le_iff₀ (by norm_num)]
        rw [zpow_add₀ (by norm_num)] at f3
        norm_num at f3 ⊢
        linarith
      have hn := h.nearest (t - tc + P) P hb
      rw [abs_of_pos (by linarith), abs_of_neg (by linarith)] at hn
      linarith
  rw [hm, div_self hP.ne', h.fix isBinary_one]

/-- C185, the array: one phase for every time, as above; with `cat` as many again, which are these plus 1 up to rounding, from 1 to 2. -/
theorem C185_array (rnd : ℝ → ℝ) (h : RoundsToNearest rnd) (tc P : ℝ) (hP : 0 < P) (hb : IsBinary P) (ts : List ℝ) :
    (∀ cat, (phasesRounded rnd tc P ts cat).length = if cat then 2 * ts.length else ts.length) ∧
    ∀ i t, ts[i]? = some t → ∃ φ, phaseRounded rnd tc P t = some φ ∧ (∀ cat, (phasesRounded rnd tc P ts cat)[i]? = some (some φ)) ∧
      ∃ ψ, (phasesRounded rnd tc P ts true)[ts.length + i]? = some (some ψ) ∧ 1 ≤ ψ ∧ ψ ≤ 2 ∧ |ψ - (φ + 1)| ≤ 1 / 2 ^ 52 := by
  refine ⟨fun cat => by cases cat <;> simp [phasesRounded]; ring, fun i t hi => ?_⟩
  obtain ⟨φ, h1, h2, h3, _⟩ := C185_phase rnd h tc P t hP hb
  have hlt := (List.getElem?_eq_some_iff.1 hi).1
  refine ⟨φ, h1, fun cat => ?_, rnd (φ + 1), ?_, h.ge isBinary_one (by linarith), h.le isBinary_two (by linarith), ?_⟩
  · cases cat
    · simp [phasesRounded, hi, h1]
    · rw [phasesRounded, if_pos rfl, List.getElem?_append_left (by simpa using hlt)]
      simp [hi, h1]
  · rw [phasesRounded, if_pos rfl, List.getElem?_append_right (by simp)]
    simp [hi, h1]
  · have := h.err (φ + 1)
    rw [abs_sub_comm, abs_of_nonneg (by linarith : 0 ≤ φ + 1)] at this
    refine this.trans ?_
    rw [div_le_div_iff₀ (by norm_num) (by norm_num)]
    nlinarith

/-- Without rounding these are the phases of C52. -/
theorem phaseRounded_exact (tc P t : ℝ) : phaseRounded (fun x => x) tc P t = phaseAt tc P t := by
  unfold phaseRounded phaseAt
  by_cases hP : P = 0
  · rw [if_pos hP, if_pos hP]
  rw [if_neg hP, if_neg hP]
  refine congrArg some (congrArg (· / P) ?_)
  set a := t - tc
  have e : a = P * (a / P) := by field_simp
  set q := a / P
  unfold modRounded truncInt
  change (if a - P * ((if 0 ≤ q then ⌊q⌋ else ⌈q⌉ : ℤ) : ℝ) ≠ 0 ∧ ¬ (a - P * ((if 0 ≤ q then ⌊q⌋ else ⌈q⌉ : ℤ) : ℝ) < 0 ↔ P < 0) then a - P * ((if 0 ≤ q then ⌊q⌋ else ⌈q⌉ : ℤ) : ℝ) + P else a - P * ((if 0 ≤ q then ⌊q⌋ else ⌈q⌉ : ℤ) : ℝ)) = _
  have f1 := Int.floor_le q
  have f2 := Int.lt_floor_add_one q
  have c1 := Int.le_ceil q
  have c2 := Int.ceil_lt_add_one q
  by_cases hq : 0 ≤ q
  · simp only [if_pos hq]
    rw [if_neg]
    rintro ⟨hne, hs⟩
    have er : a - P * (⌊q⌋ : ℝ) = P * (q - ⌊q⌋) := by rw [mul_sub, ← e]
    rw [er] at hne hs
    have hf : 0 < q - ⌊q⌋ := lt_of_le_of_ne (by linarith) fun h => hne (by rw [← h, mul_zero])
    exact hs ⟨fun h => by by_contra hc; exact absurd h (not_lt.2 (mul_nonneg (not_lt.1 hc) hf.le)), fun h => mul_neg_of_neg_of_pos h hf⟩
  · simp only [if_neg hq]
    have er : a - P * (⌈q⌉ : ℝ) = P * (q - ⌈q⌉) := by rw [mul_sub, ← e]
    by_cases hz : q = ⌈q⌉
    · have hfl : ⌊q⌋ = ⌈q⌉ := by rw [hz, Int.floor_intCast, Int.ceil_intCast]
      rw [hfl, if_neg]
      rintro ⟨hne, _⟩
      exact hne (by rw [er, ← hz, sub_self, mul_zero])
    · have hc : q - ⌈q⌉ < 0 := lt_of_le_of_ne (by linarith) fun h => hz (by linarith)
      have hfl : ⌈q⌉ = ⌊q⌋ + 1 := by
        apply le_antisymm (Int.ceil_le_floor_add_one q)
        have : (⌊q⌋ : ℝ) < ⌈q⌉ := by linarith
        have := Int.cast_lt.1 this
        omega
      rw [if_pos]
      · rw [hfl]; push_cast; ring
      · rw [er]
        refine ⟨mul_ne_zero hP hc.ne, fun h => ?_⟩
        rcases lt_or_gt_of_ne hP with hP | hP
        · exact absurd (h.2 hP) (not_lt.2 (mul_nonneg_of_nonpos_of_nonpos hP.le hc.le))
        · exact absurd (h.1 (mul_neg_of_pos_of_neg hP hc)) (not_lt.2 hP.le)

/-- The hypotheses can be met: there are roundings to the nearest number, a Julian date with the period 4.25 days, and a time just before `tc = 0`. -/
example : (∃ rnd, RoundsToNearest rnd) ∧ OnGrid (-31) 2455000.5 ∧ OnGrid (-31) 2455001.75 ∧ IsBinary 4.25 ∧ (4.25 : ℝ) ≤ 2 ^ (53 + (-31 : ℤ)) ∧
    IsBinary ((-1 / 2 ^ 60 : ℝ) - 0) ∧ 0 - (-1 / 2 ^ 60 : ℝ) < 4.25 / 2 ^ 54 := by
  refine ⟨exists_rounding, ⟨2455000 * 2 ^ 31 + 2 ^ 30, ?_⟩, ⟨2455001 * 2 ^ 31 + 3 * 2 ^ 29, ?_⟩, ⟨17, -2, ?_, ?_⟩, ?_, ⟨-1, -60, ?_, ?_⟩, ?_⟩ <;> norm_num

end Radvel
