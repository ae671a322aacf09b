import Verif.Model.Numbers
import Verif.Spec.Calendar
import Mathlib.Data.List.GetD
import Mathlib.Tactic.LinearCombination
import Mathlib.Tactic.FieldSimp
import Mathlib.Tactic.IntervalCases

/-!
# C53-C56, C90, C91: rounding, elapsed times, dates, percentiles
-/

namespace Radvel
open Real

/-! ## rounding -/

theorem roundEven_dist (x : ℝ) : |(roundEven x : ℝ) - x| ≤ 1 / 2 := by
  have h1 := Int.floor_add_fract x
  have h0 := Int.fract_nonneg x
  have h2 := Int.fract_lt_one x
  unfold roundEven
  split_ifs with a b c <;> rw [abs_le] <;> push_cast <;> constructor <;> linarith

theorem roundEven_int (z : ℤ) : roundEven (z : ℝ) = z := by
  unfold roundEven; simp

theorem roundEven_neg (x : ℝ) : roundEven (-x) = -roundEven x := by
  have h1 := Int.floor_add_fract x
  by_cases h0 : Int.fract x = 0
  · have : x = (⌊x⌋ : ℝ) := by linarith
    rw [this, ← Int.cast_neg, roundEven_int, roundEven_int]
  · have hf : Int.fract (-x) = 1 - Int.fract x := Int.fract_neg h0
    have h2 := Int.floor_add_fract (-x)
    have hfl : ⌊-x⌋ = -⌊x⌋ - 1 := by
      have : (⌊-x⌋ : ℝ) = ((-⌊x⌋ - 1 : ℤ) : ℝ) := by push_cast; linarith
      exact_mod_cast this
    unfold roundEven
    rw [hf, hfl]
    split_ifs <;> first | omega | (exfalso; linarith)

/-- The decimal exponent of a non-zero number. -/
theorem exponent_spec (x : ℝ) (hx : x ≠ 0) (n : ℤ) : ⌊logb 10 |x|⌋ = n ↔ (10 : ℝ) ^ n ≤ |x| ∧ |x| < 10 ^ (n + 1) := by
  have hpos : 0 < |x| := abs_pos.2 hx
  rw [Int.floor_eq_iff, le_logb_iff_rpow_le (by norm_num) hpos]
  have : logb 10 |x| < n + 1 ↔ |x| < 10 ^ ((n : ℝ) + 1) := logb_lt_iff_lt_rpow (by norm_num) hpos
  rw [this, rpow_intCast, show ((n : ℝ) + 1) = ((n + 1 : ℤ) : ℝ) by push_cast; ring, rpow_intCast]

theorem pyRound_dist (x : ℝ) (d : ℤ) : |pyRound x d - x| ≤ 10 ^ (-d) / 2 := by
  have h10 : (0 : ℝ) < 10 ^ d := by positivity
  have h := roundEven_dist (x * 10 ^ d)
  unfold pyRound
  have : (roundEven (x * 10 ^ d) : ℝ) / 10 ^ d - x = (roundEven (x * 10 ^ d) - x * 10 ^ d) / 10 ^ d := by field_simp
  rw [this, abs_div, abs_of_pos h10, zpow_neg, div_le_iff₀ h10]
  have : ((10 : ℝ) ^ d)⁻¹ / 2 * 10 ^ d = 1 / 2 := by field_simp
  rw [this]; exact h

theorem roundSig_eq (x : ℝ) (hx : x ≠ 0) (sig n : ℤ) (h1 : (10 : ℝ) ^ n ≤ |x|) (h2 : |x| < 10 ^ (n + 1)) : roundSig x sig = pyRound x (sig - n - 1) := by
  unfold roundSig
  rw [if_neg hx, (exponent_spec x hx n).2 ⟨h1, h2⟩]

/-- C54: `round_sig` returns zero for zero; otherwise a multiple of the unit of the last kept digit, at most half of that unit away. -/
theorem C54_error (x : ℝ) (sig n : ℤ) (h1 : (10 : ℝ) ^ n ≤ |x|) (h2 : |x| < 10 ^ (n + 1)) :
    (∃ z : ℤ, roundSig x sig = z * 10 ^ (n - sig + 1)) ∧ |roundSig x sig - x| ≤ 10 ^ (n - sig + 1) / 2 := by
  have hx : x ≠ 0 := by rintro rfl; have : (0 : ℝ) < 10 ^ n := by positivity
                        simp at h1; linarith
  rw [roundSig_eq x hx sig n h1 h2]
  have e : -(sig - n - 1) = n - sig + 1 := by ring
  refine ⟨⟨roundEven (x * 10 ^ (sig - n - 1)), ?_⟩, ?_⟩
  · unfold pyRound
    rw [← e, zpow_neg, div_eq_mul_inv]
  · have := pyRound_dist x (sig - n - 1)
    rwa [e] at this

/-- C54: zero is kept. -/
theorem C54_zero (sig : ℤ) : roundSig 0 sig = 0 := by simp [roundSig]

theorem exists_exponent (x : ℝ) (hx : x ≠ 0) : ∃ n : ℤ, (10 : ℝ) ^ n ≤ |x| ∧ |x| < 10 ^ (n + 1) := ⟨_, (exponent_spec x hx _).1 rfl⟩

/-- C54: with at least one digit the sign is kept (and rounding commutes with it), and a non-zero number does not become zero. -/
theorem C54_sign (x : ℝ) (sig : ℤ) (hs : 1 ≤ sig) : (0 < x → 0 < roundSig x sig) ∧ (x < 0 → roundSig x sig < 0) ∧ roundSig (-x) sig = -roundSig x sig := by
  have key : ∀ x : ℝ, x ≠ 0 → |roundSig x sig - x| < |x| := by
    intro x hx
    obtain ⟨n, h1, h2⟩ := exists_exponent x hx
    have h3 := (C54_error x sig n h1 h2).2
    have h4 : (10 : ℝ) ^ (n - sig + 1) ≤ 10 ^ n := zpow_le_zpow_right₀ (by norm_num) (by omega)
    have h5 : (0 : ℝ) < 10 ^ n := by positivity
    linarith
  refine ⟨fun h => ?_, fun h => ?_, ?_⟩
  · have := key x h.ne'
    rw [abs_of_pos h, abs_lt] at this
    linarith
  · have := key x h.ne
    rw [abs_of_neg h, abs_lt] at this
    linarith
  · by_cases hx : x = 0
    · simp [hx, roundSig]
    · unfold roundSig
      rw [if_neg hx, if_neg (neg_ne_zero.2 hx), abs_neg]
      unfold pyRound
      rw [neg_mul, roundEven_neg]
      push_cast
      ring

/-- C54: with two digits (or more) the value moves by at most 5 per cent. -/
theorem C54_relative (x : ℝ) (sig : ℤ) (hs : 2 ≤ sig) : |roundSig x sig - x| ≤ 0.05 * |x| := by
  by_cases hx : x = 0
  · simp [hx, roundSig]
  · obtain ⟨n, h1, h2⟩ := exists_exponent x hx
    have h3 := (C54_error x sig n h1 h2).2
    have h4 : (10 : ℝ) ^ (n - sig + 1) ≤ 10 ^ (n - 1) := zpow_le_zpow_right₀ (by norm_num) (by omega)
    have h5 : (10 : ℝ) ^ (n - 1) = 10 ^ n / 10 := by rw [zpow_sub₀ (by norm_num), zpow_one]
    rw [h5] at h4
    linarith

theorem pyRound_multiple (z : ℤ) (d : ℤ) : pyRound (z * 10 ^ (-d)) d = z * 10 ^ (-d) := by
  have h10 : (10 : ℝ) ^ d ≠ 0 := by positivity
  unfold pyRound
  rw [zpow_neg, mul_assoc, inv_mul_cancel₀ h10, mul_one, roundEven_int, div_eq_mul_inv]

/-- C54: rounding twice is rounding once. -/
theorem C54_idempotent (x : ℝ) (sig : ℤ) (hs : 1 ≤ sig) : roundSig (roundSig x sig) sig = roundSig x sig := by
  by_cases hx : x = 0
  · simp [hx, roundSig]
  obtain ⟨n, h1, h2⟩ := exists_exponent x hx
  obtain ⟨⟨z, hz⟩, hd⟩ := C54_error x sig n h1 h2
  set y := roundSig x sig with hy
  have hu : (0 : ℝ) < 10 ^ (n - sig + 1) := by positivity
  -- powers of ten are multiples of the unit
  have hpow : ∀ m : ℤ, n ≤ m → ∃ k : ℕ, (10 : ℝ) ^ m = ((10 ^ k : ℕ) : ℝ) * 10 ^ (n - sig + 1) := by
    intro m hm
    refine ⟨(m - (n - sig + 1)).toNat, ?_⟩
    push_cast
    rw [← zpow_natCast, ← zpow_add₀ (by norm_num)]
    congr 1
    omega
  obtain ⟨a, ha⟩ := hpow n (le_refl _)
  obtain ⟨b, hb⟩ := hpow (n + 1) (by omega)
  have hyabs : |y| = |z| * 10 ^ (n - sig + 1) := by rw [hz, abs_mul, abs_of_pos hu]; push_cast; rfl
  have hdiff : |(|y| - |x|)| ≤ 10 ^ (n - sig + 1) / 2 := (abs_abs_sub_abs_le_abs_sub y x).trans hd
  rw [abs_le, hyabs] at hdiff
  rw [ha] at h1
  have hb2 := h2
  rw [hb] at hb2
  have hlow : ((10 ^ a : ℕ) : ℤ) ≤ |z| := by
    have : (((10 ^ a : ℕ) : ℤ) : ℝ) - 1 < (|z| : ℤ) := by
      by_contra hcon
      push Not at hcon
      have := mul_le_mul_of_nonneg_right hcon hu.le
      push_cast at this h1 hdiff
      nlinarith [hdiff.1]
    have h : ((10 ^ a : ℕ) : ℤ) - 1 < |z| := by exact_mod_cast this
    omega
  have hhigh : |z| ≤ ((10 ^ b : ℕ) : ℤ) := by
    have : ((|z| : ℤ) : ℝ) < (((10 ^ b : ℕ) : ℤ) : ℝ) + 1 := by
      by_contra hcon
      push Not at hcon
      have := mul_le_mul_of_nonneg_right hcon hu.le
      push_cast at this hb2 hdiff
      nlinarith [hdiff.2]
    have h : |z| < ((10 ^ b : ℕ) : ℤ) + 1 := by exact_mod_cast this
    omega
  have hy0 : y ≠ 0 := by
    intro h0
    rw [h0, abs_zero] at hyabs
    have hz0 : |z| = 0 := by
      have : ((|z| : ℤ) : ℝ) = 0 := by
        rcases mul_eq_zero.1 hyabs.symm with h | h
        · push_cast; exact_mod_cast h
        · linarith
      exact_mod_cast this
    rw [hz0] at hlow
    have : 0 < 10 ^ a := by positivity
    omega
  by_cases hlt : |z| < ((10 ^ b : ℕ) : ℤ)
  · have e1 : (10 : ℝ) ^ n ≤ |y| := by
      rw [hyabs, ha]
      have : (((10 ^ a : ℕ) : ℤ) : ℝ) ≤ ((|z| : ℤ) : ℝ) := by exact_mod_cast hlow
      have := mul_le_mul_of_nonneg_right this hu.le
      push_cast at this ⊢; exact this
    have e2 : |y| < 10 ^ (n + 1) := by
      rw [hyabs, hb]
      have : ((|z| : ℤ) : ℝ) < (((10 ^ b : ℕ) : ℤ) : ℝ) := by exact_mod_cast hlt
      have := mul_lt_mul_of_pos_right this hu
      push_cast at this ⊢; exact this
    rw [roundSig_eq y hy0 sig n e1 e2, hz, show n - sig + 1 = -(sig - n - 1) by ring]
    exact pyRound_multiple z _
  · have heq : |z| = ((10 ^ b : ℕ) : ℤ) := le_antisymm hhigh (not_lt.1 hlt)
    have hyval : |y| = 10 ^ (n + 1) := by
      rw [hyabs, hb]
      have : ((|z| : ℤ) : ℝ) = (((10 ^ b : ℕ) : ℤ) : ℝ) := by exact_mod_cast heq
      push_cast at this ⊢; rw [this]
    have e2 : |y| < 10 ^ (n + 1 + 1) := by rw [hyval]; exact zpow_lt_zpow_right₀ (by norm_num) (by omega)
    rw [roundSig_eq y hy0 sig (n + 1) hyval.ge e2]
    -- `y` is plus or minus a power of ten
    have hk : ∃ w : ℤ, y = w * 10 ^ (-(sig - (n + 1) - 1)) := by
      have hp : (10 : ℝ) ^ (n + 1) = (((10 ^ (sig - 1).toNat : ℕ) : ℤ) : ℝ) * 10 ^ (-(sig - (n + 1) - 1)) := by
        push_cast
        rw [← zpow_natCast, ← zpow_add₀ (by norm_num)]
        congr 1
        omega
      rcases abs_choice y with h | h
      · exact ⟨_, by rw [← hp, ← hyval, h]⟩
      · refine ⟨-((10 ^ (sig - 1).toNat : ℕ) : ℤ), ?_⟩
        rw [Int.cast_neg, neg_mul, ← hp, ← hyval, h, neg_neg]
    obtain ⟨w, hw⟩ := hk
    rw [hw]
    exact pyRound_multiple w _

/-- Non-vacuity of C54, and a value: 1234 to two digits is 1200. -/
example : (10 : ℝ) ^ (3 : ℤ) ≤ |1234| ∧ |(1234 : ℝ)| < 10 ^ (3 + 1 : ℤ) ∧ roundSig 1234 2 = 1200 := by
  have h1 : (10 : ℝ) ^ (3 : ℤ) ≤ |1234| := by norm_num
  have h2 : |(1234 : ℝ)| < 10 ^ (3 + 1 : ℤ) := by norm_num
  refine ⟨h1, h2, ?_⟩
  rw [roundSig_eq 1234 (by norm_num) 2 3 h1 h2]
  have hf : ⌊(1234 : ℝ) * 10 ^ (2 - 3 - 1 : ℤ)⌋ = 12 := by rw [Int.floor_eq_iff]; norm_num
  have hfr : Int.fract ((1234 : ℝ) * 10 ^ (2 - 3 - 1 : ℤ)) = 0.34 := by unfold Int.fract; rw [hf]; norm_num
  unfold pyRound roundEven
  rw [hfr, hf]
  norm_num

/-! ## C91: sigfig -/

theorem pyRound_eventually (med : ℝ) (hm : med ≠ 0) (nd : ℤ) : ∃ P : Nat, ∀ p : Nat, P ≤ p → pyRound med (nd + p) ≠ 0 := by
  obtain ⟨n, h1, h2⟩ := exists_exponent med hm
  refine ⟨(-n - nd).toNat, ?_⟩
  intro p hp h0
  have hd := pyRound_dist med (nd + p)
  rw [h0, zero_sub, abs_neg] at hd
  have : (10 : ℝ) ^ (-(nd + (p : ℤ))) ≤ 10 ^ n := zpow_le_zpow_right₀ (by norm_num) (by omega)
  have h5 : (0 : ℝ) < 10 ^ n := by positivity
  linarith

theorem sigfigLoop_mono (med : ℝ) (nd : ℤ) : ∀ (fuel : Nat) tmp p m, sigfigLoop med nd fuel tmp p = some m → sigfigLoop med nd (fuel + 1) tmp p = some m := by
  intro fuel
  induction fuel with
  | zero =>
    intro tmp p m h
    unfold sigfigLoop at h
    unfold sigfigLoop
    by_cases h0 : tmp = 0
    · rw [if_pos h0] at h; cases h
    · rw [if_neg h0] at h ⊢; exact h
  | succ fuel ih =>
    intro tmp p m h
    unfold sigfigLoop at h ⊢
    by_cases h0 : tmp = 0
    · rw [if_pos h0] at h ⊢; exact ih _ _ _ h
    · rw [if_neg h0] at h ⊢; exact h

theorem sigfigLoop_stops (med : ℝ) (nd : ℤ) (P : Nat) (hP : ∀ p, P ≤ p → pyRound med (nd + (p : Nat)) ≠ 0) (fuel : Nat) :
    ∀ (tmp : ℝ) (p : Nat), (tmp = 0 → P < p + fuel ∧ p ≤ P) →
      ∃ m, m ≠ 0 ∧ sigfigLoop med nd fuel tmp p = some m ∧ (m = tmp ∨ tmp = 0 ∧ ∃ q : Nat, p ≤ q ∧ m = pyRound med (nd + q) ∧ ∀ q' : Nat, p ≤ q' → q' < q → pyRound med (nd + q') = 0) := by
  induction fuel with
  | zero =>
    intro tmp p h
    by_cases h0 : tmp = 0
    · have := h h0; omega
    · exact ⟨tmp, h0, by unfold sigfigLoop; rw [if_neg h0], .inl rfl⟩
  | succ fuel ih =>
    intro tmp p h
    by_cases h0 : tmp = 0
    · have hh := h h0
      obtain ⟨m, h1, h2, h3⟩ := ih (pyRound med (nd + p)) (p + 1) (fun h00 => ⟨by omega, by
        by_contra hcon
        exact hP p (by omega) h00⟩)
      refine ⟨m, h1, by unfold sigfigLoop; rw [if_pos h0]; exact h2, .inr ⟨h0, ?_⟩⟩
      rcases h3 with h3 | ⟨hz, q, hq1, hq2, hq3⟩
      · exact ⟨p, le_refl _, h3, by omega⟩
      · refine ⟨q, by omega, hq2, ?_⟩
        intro q' h1 h2
        rcases Nat.lt_or_ge p q' with h | h
        · exact hq3 q' h h2
        · rw [show q' = p by omega]; exact hz
    · exact ⟨tmp, h0, by unfold sigfigLoop; rw [if_neg h0], .inl rfl⟩

/-- The number of decimals that `sigfig` works with: that of the error shown with more decimals. -/
def decimals (lo hi : Dec) : ℤ := if |hi.exp| > |lo.exp| then hi.exp else lo.exp

/-- C91 for errors with two decimals or more: `sigfig` stops; the errors are returned as they are and the median is rounded to the same number of decimals, or, where that would
give zero for a non-zero median, to the smallest larger number of decimals that does not. -/
theorem C91_decimals (med : ℝ) (lo hi : Dec) (hd : decimals lo hi < -1) :
    ∃ m fuel0, (∀ fuel, fuel0 ≤ fuel → sigfig fuel med lo (some hi) = some (m, lo.val, hi.val)) ∧ (m = 0 ↔ med = 0) ∧
      (med ≠ 0 → ∃ q : Nat, m = pyRound med (|decimals lo hi| + q) ∧ ∀ q' : Nat, q' < q → pyRound med (|decimals lo hi| + q') = 0) := by
  by_cases hm : med = 0
  · refine ⟨0, 0, ?_, by simp [hm], fun h => absurd hm h⟩
    intro fuel _
    unfold sigfig
    unfold decimals at hd
    simp only [Option.getD_some]
    rw [if_pos hd, if_neg (by simp [hm]), hm]
  · obtain ⟨P, hP⟩ := pyRound_eventually med hm |decimals lo hi|
    have hrun : ∀ fuel, P + 1 ≤ fuel → _ := fun fuel hf =>
      sigfigLoop_stops med |decimals lo hi| P hP fuel (pyRound med |decimals lo hi|) 0 (fun _ => ⟨by omega, by omega⟩)
    obtain ⟨m, h1, h2, h3⟩ := hrun (P + 1) (le_refl _)
    refine ⟨m, P + 1, ?_, by simp [h1, hm], fun _ => ?_⟩
    · intro fuel hf
      have hmono : ∀ k, sigfigLoop med |decimals lo hi| (P + 1 + k) (pyRound med |decimals lo hi|) 0 = some m := by
        intro k
        induction k with
        | zero => exact h2
        | succ k ih => exact sigfigLoop_mono _ _ _ _ _ _ ih
      obtain ⟨k, rfl⟩ := Nat.exists_eq_add_of_le hf
      have := hmono k
      unfold sigfig
      simp only [Option.getD_some]
      unfold decimals at hd this
      rw [if_pos hd, if_pos hm, this]
    · rcases h3 with h3 | ⟨_, q, _, h4, h5⟩
      · exact ⟨0, by simpa using h3, by omega⟩
      · exact ⟨q, h4, fun q' hq => h5 q' (by omega) hq⟩

/-- Non-vacuity: 0.001 with error 0.12 needs a third decimal. -/
example : decimals ⟨12, -2⟩ ⟨12, -2⟩ < -1 := by decide

/-- C91, whole numbers: if both errors are shown as whole numbers, the median and the upper error are rounded to integers, but the lower error to two significant digits. -/
theorem C91_whole (fuel : Nat) (med : ℝ) (lo hi : Dec) (h : (decimals lo hi = -1 ∧ hi.m % 10 = 0 ∧ lo.m % 10 = 0) ∨ decimals lo hi = 0) :
    sigfig fuel med lo (some hi) = some ((roundEven med : ℝ), (truncInt (roundSig lo.val 2) : ℝ), (roundEven hi.val : ℝ)) := by
  have htr : ∀ z : ℤ, truncInt (z : ℝ) = z := by intro z; unfold truncInt; simp
  unfold decimals at h
  unfold sigfig
  simp only [Option.getD_some]
  rw [if_neg (by rcases h with ⟨h, _⟩ | h <;> rw [h] <;> decide), if_pos ?_, htr, htr]
  rcases h with ⟨h1, h2, h3⟩ | h
  · exact .inl ⟨⟨h1, by simp [Dec.lastZero, h2]⟩, h1, by simp [Dec.lastZero, h3]⟩
  · exact .inr h

/-- C91 is false: equal errors in, different errors out. A value with the symmetric error 1234.0 is returned with the errors 1200 and 1234. -/
theorem C91_symmetric_violated (fuel : Nat) (med : ℝ) : (⟨12340, -1⟩ : Dec).val = 1234 ∧
    sigfig fuel med ⟨12340, -1⟩ none = some ((roundEven med : ℝ), 1200, 1234) := by
  have hv : (⟨12340, -1⟩ : Dec).val = 1234 := by unfold Dec.val; norm_num
  refine ⟨hv, ?_⟩
  have hn : sigfig fuel med ⟨12340, -1⟩ none = sigfig fuel med ⟨12340, -1⟩ (some ⟨12340, -1⟩) := rfl
  rw [hn, C91_whole fuel med _ _ (.inl ⟨by decide, by decide, by decide⟩), hv]
  have h1 : (10 : ℝ) ^ (3 : ℤ) ≤ |1234| := by norm_num
  have h2 : |(1234 : ℝ)| < 10 ^ (3 + 1 : ℤ) := by norm_num
  have hr : roundSig 1234 2 = 1200 := by
    rw [roundSig_eq 1234 (by norm_num) 2 3 h1 h2]
    have hf : ⌊(1234 : ℝ) * 10 ^ (2 - 3 - 1 : ℤ)⌋ = 12 := by rw [Int.floor_eq_iff]; norm_num
    have hfr : Int.fract ((1234 : ℝ) * 10 ^ (2 - 3 - 1 : ℤ)) = 0.34 := by unfold Int.fract; rw [hf]; norm_num
    unfold pyRound roundEven
    rw [hfr, hf]
    norm_num
  have hi : roundEven 1234 = 1234 := by have := roundEven_int 1234; push_cast at this; exact this
  rw [hr, hi]
  have ht : truncInt 1200 = 1200 := by unfold truncInt; rw [if_pos (by norm_num)]; exact Int.floor_ofNat 1200
  rw [ht]
  norm_num

/-! ## C55 -/

/-- Seconds per unit. -/
def TimeUnit.secs : TimeUnit → ℝ
  | .seconds => 1
  | .minutes => 60
  | .hours => 3600
  | .days => 86400

/-- C55: number times unit is the duration, and the unit is the largest of which there is more than one sixtieth-fold threshold: seconds up to a minute, minutes up to an
hour, hours up to a day, days beyond. -/
theorem C55_time_print (t : ℝ) : (timePrint t).1 * (timePrint t).2.secs = t ∧ ((timePrint t).2 = .seconds ↔ t ≤ 60) ∧ ((timePrint t).2 = .minutes ↔ 60 < t ∧ t ≤ 3600) ∧
    ((timePrint t).2 = .hours ↔ 3600 < t ∧ t ≤ 86400) ∧ ((timePrint t).2 = .days ↔ 86400 < t) := by
  unfold timePrint
  by_cases h1 : t > 60
  · by_cases h2 : t / 60 > 60
    · by_cases h3 : t / 60 / 60 > 24
      · simp only [h1, h2, h3, if_true, TimeUnit.secs]
        have : 86400 < t := by linarith
        refine ⟨by ring, ?_, ?_, ?_, ?_⟩ <;> simp <;> intros <;> linarith
      · simp only [h1, h2, h3, if_true, if_false, TimeUnit.secs]
        have a1 : 3600 < t := by linarith
        have a2 : t ≤ 86400 := by linarith
        refine ⟨by ring, ?_, ?_, ?_, ?_⟩ <;> simp [a1, a2] <;> linarith
    · simp only [h1, h2, if_true, if_false, TimeUnit.secs]
      have a2 : t ≤ 3600 := by linarith
      refine ⟨by ring, ?_, ?_, ?_, ?_⟩ <;> simp [a2] <;> (try intros) <;> linarith
  · simp only [h1, if_false, TimeUnit.secs]
    push Not at h1
    refine ⟨by ring, ?_, ?_, ?_, ?_⟩ <;> simp [h1] <;> (try intros) <;> linarith

/-! ## C56 -/

theorem epochs : datetime 2000 1 1 12 0 0 - datetime 1858 11 17 0 0 0 = 51544 * usDay + usDay / 2 ∧ datetime 2000 1 1 12 0 0 % 1000000 = 0 := by decide

theorem date2jd_eq (d : ℤ) : date2jd d = 2451545 + ((d - d % 1000000 - datetime 2000 1 1 12 0 0 : ℤ) : ℝ) / usDay := by
  unfold date2jd
  set e := datetime 2000 1 1 12 0 0 with he
  have h0 : e % 1000000 = 0 := epochs.2
  have hkey : d - d % 1000000 - e = (d - e) / usDay * usDay + (d - e) % usDay / 1000000 * 1000000 := by unfold usDay; omega
  rw [hkey]
  push_cast
  unfold usDay
  push_cast
  norm_num
  ring

/-- C56: to Julian date and back gives the date without its fraction of a second. -/
theorem C56_roundtrip (d : ℤ) : jd2date (date2jd d) = d - d % 1000000 := by
  unfold jd2date
  simp only
  rw [date2jd_eq]
  have hm : (2451545 + ((d - d % 1000000 - datetime 2000 1 1 12 0 0 : ℤ) : ℝ) / usDay - 2400000.5) * usDay =
      ((d - d % 1000000 - datetime 1858 11 17 0 0 0 : ℤ) : ℝ) := by
    have h1 := epochs.1
    have h2 : datetime 1858 11 17 0 0 0 = datetime 2000 1 1 12 0 0 - (51544 * usDay + usDay / 2) := by omega
    rw [h2]
    unfold usDay
    push_cast
    norm_num
    ring
  rw [hm, roundEven_int]
  omega

/-- C56: the Julian date depends on whole seconds only and increases with them. -/
theorem C56_increasing (d d' : ℤ) : date2jd d < date2jd d' ↔ d / 1000000 < d' / 1000000 := by
  rw [date2jd_eq, date2jd_eq]
  have hpos : (0 : ℝ) < (usDay : ℝ) := by unfold usDay; norm_num
  rw [add_lt_add_iff_left, div_lt_div_iff_of_pos_right hpos, Int.cast_lt]
  omega

/-- C56: a day later in date is one more in Julian date; noon of 1 January 2000 is 2451545. -/
theorem C56_day (d : ℤ) : date2jd (d + usDay) = date2jd d + 1 ∧ date2jd (datetime 2000 1 1 12 0 0) = 2451545 := by
  constructor
  · rw [date2jd_eq, date2jd_eq]
    have : (d + usDay) - (d + usDay) % 1000000 = d - d % 1000000 + usDay := by unfold usDay; omega
    rw [this]
    unfold usDay
    push_cast
    ring
  · rw [date2jd_eq]
    have : datetime 2000 1 1 12 0 0 - datetime 2000 1 1 12 0 0 % 1000000 - datetime 2000 1 1 12 0 0 = 0 := by rw [epochs.2]; ring
    rw [this]; simp

theorem days_julian (y d : ℤ) (m : Nat) (h1 : 1 ≤ m) (h2 : m ≤ 12) : daysBeforeYear y + daysBeforeMonth y m + d = julianDay y m d - 1721425 := by
  have hl : isLeap y = true ↔ y % 4 = 0 ∧ (y % 100 ≠ 0 ∨ y % 400 = 0) := by
    unfold isLeap
    rw [Bool.and_eq_true, Bool.or_eq_true, decide_eq_true_eq, decide_eq_true_eq, decide_eq_true_eq]
  unfold daysBeforeYear daysBeforeMonth julianDay
  by_cases hy : isLeap y = true
  · have hy' := hl.mp hy
    interval_cases m <;> simp only [List.range, List.range.loop, List.map_cons, List.map_nil, List.sum_cons, List.sum_nil, daysInMonth, hy] <;> norm_num [List.range.loop] <;> omega
  · have hy' := mt hl.mpr hy
    interval_cases m <;> simp only [List.range, List.range.loop, List.map_cons, List.map_nil, List.sum_cons, List.sum_nil, daysInMonth, hy] <;> norm_num [List.range.loop] <;> omega

/-- C56 and the calendar: the Julian date of a day of the Gregorian calendar, at a time of day, is its Julian day number minus one half (Julian days begin at noon) plus the fraction of the day. -/
theorem C56_calendar (y d h mi s : ℤ) (m : Nat) (h1 : 1 ≤ m) (h2 : m ≤ 12) : date2jd (datetime y m d h mi s) = julianDay y m d - 1 / 2 + ((h * 3600 + mi * 60 + s : ℤ) : ℝ) / 86400 := by
  have hd : datetime y m d h mi s % 1000000 = 0 := by unfold datetime usDay; omega
  have h0 : datetime 2000 1 1 12 0 0 = 730120 * usDay + 43200 * 1000000 := by decide
  rw [date2jd_eq, hd, h0]
  unfold datetime
  rw [days_julian y d m h1 h2]
  unfold usDay
  push_cast
  ring

/-- Not vacuous: noon of 17 November 1858, where the modified Julian dates begin half a day earlier; the day before 1 March 2000 is 29 February. -/
example : date2jd (datetime 1858 11 17 12 0 0) = 2400001 ∧ date2jd (datetime 2000 3 1 12 0 0) = date2jd (datetime 2000 2 29 12 0 0) + 1 := by
  refine ⟨?_, ?_⟩
  · rw [C56_calendar _ _ _ _ _ _ (by norm_num) (by norm_num)]; norm_num [julianDay]
  · rw [C56_calendar _ _ _ _ _ _ (by norm_num) (by norm_num), C56_calendar _ _ _ _ _ _ (by norm_num) (by norm_num)]; norm_num [julianDay]

/-- A date with a fraction of a second: 2020-02-29 23:59:59.25. -/
example : jd2date (date2jd (datetime 2020 2 29 23 59 59 + 250000)) = datetime 2020 2 29 23 59 59 := by rw [C56_roundtrip]; decide

/-! ## C53, C90 -/

theorem sorted_mergeSort (l : List ℝ) : (l.mergeSort (fun a b => decide (a ≤ b))).Pairwise (· ≤ ·) := by
  have := List.pairwise_mergeSort (le := fun a b : ℝ => decide (a ≤ b)) (fun a b c h1 h2 => by simp at *; linarith) (fun a b => by simp; exact le_total _ _) l
  simpa using this

theorem sorted_getD {s : List ℝ} (hs : s.Pairwise (· ≤ ·)) {i j : Nat} (hij : i ≤ j) (hj : j < s.length) : s.getD i 0 ≤ s.getD j 0 := by
  rw [List.getD_eq_getElem _ _ (by omega), List.getD_eq_getElem _ _ hj]
  rcases Nat.eq_or_lt_of_le hij with rfl | h
  · exact le_refl _
  · exact List.pairwise_iff_getElem.1 hs i j (by omega) hj h

/-- C53: for every non-empty sample `geterr` returns; the median and the two errors are such that the lower end, the median and the upper end are in order and the ends are
elements of the sample; for an angular sample this holds for the sample with some angles moved by a full turn. -/
theorem C53_errors (mode : List ℝ → ℝ) (vec : List ℝ) (hne : vec ≠ []) (angular : Bool) : ∃ vec' med lo hi,
    geterr mode vec angular = (vec', .ok (med, lo, hi)) ∧ 0 ≤ lo ∧ 0 ≤ hi ∧ med - lo ∈ vec' ∧ med + hi ∈ vec' ∧ (angular = false → vec' = vec) ∧
    List.Forall₂ (fun x x' => x' = x ∨ x' = x + 2 * π ∨ x' = x - 2 * π) vec vec' := by
  have hwrap : List.Forall₂ (fun x x' : ℝ => x' = x ∨ x' = x + 2 * π ∨ x' = x - 2 * π) vec (if angular then wrapAngles (mode vec) vec else vec) := by
    have hid : ∀ l : List ℝ, List.Forall₂ (fun x x' : ℝ => x' = x ∨ x' = x + 2 * π ∨ x' = x - 2 * π) l l := by
      intro l; induction l with
      | nil => exact .nil
      | cons a l ih => exact .cons (.inl rfl) ih
    have hmap : ∀ (f : ℝ → ℝ), (∀ x, f x = x ∨ f x = x + 2 * π ∨ f x = x - 2 * π) → ∀ l : List ℝ,
        List.Forall₂ (fun x x' : ℝ => x' = x ∨ x' = x + 2 * π ∨ x' = x - 2 * π) l (l.map f) := by
      intro f hf l; induction l with
      | nil => exact .nil
      | cons a l ih => exact .cons (hf a) ih
    cases angular with
    | false => exact hid vec
    | true =>
      simp only [if_true]
      unfold wrapAngles
      simp only
      by_cases h1 : mode vec > π / 2
      · have hpi := pi_pos
        rw [if_pos h1, if_neg (by linarith)]
        exact hmap _ (fun x => by by_cases h : x < 0 <;> simp [h]) vec
      · rw [if_neg h1]
        by_cases h2 : mode vec ≤ -(π / 2)
        · rw [if_pos h2]
          exact hmap _ (fun x => by by_cases h : 0 ≤ x <;> simp [h]) vec
        · rw [if_neg h2]; exact hid vec
  unfold geterr
  simp only
  set v := (if angular then wrapAngles (mode vec) vec else vec) with hv
  have hvne : v ≠ [] := by
    intro h; rw [h] at hwrap
    have := hwrap.length_eq
    exact hne (List.length_eq_zero_iff.1 (by simpa using this))
  set s := v.mergeSort (fun a b => decide (a ≤ b)) with hs
  have hsort : s.Pairwise (· ≤ ·) := sorted_mergeSort v
  have hperm : s.Perm v := List.mergeSort_perm _ _
  have hn : 0 < s.length := by rw [hperm.length_eq]; exact List.length_pos_iff.2 hvne
  set n := s.length with hnn
  have hnr : (1 : ℝ) ≤ n := by exact_mod_cast hn
  have hlo : ⌊(0.159 : ℝ) * n⌋₊ < n := by
    rw [Nat.floor_lt (by positivity)]; nlinarith
  have hhi : ⌊(0.841 : ℝ) * n⌋₊ < n := by
    rw [Nat.floor_lt (by positivity)]; nlinarith
  have e1 : pyIndex s ⌊(0.159 : ℝ) * n⌋₊ = .ok (s.getD ⌊(0.159 : ℝ) * n⌋₊ 0) := by
    unfold pyIndex; rw [List.getElem?_eq_getElem hlo, List.getD_eq_getElem _ _ hlo]
  have e2 : pyIndex s ⌊(0.841 : ℝ) * n⌋₊ = .ok (s.getD ⌊(0.841 : ℝ) * n⌋₊ 0) := by
    unfold pyIndex; rw [List.getElem?_eq_getElem hhi, List.getD_eq_getElem _ _ hhi]
  have hlo2 : 2 * ⌊(0.159 : ℝ) * n⌋₊ + 1 ≤ n := by
    have h1 : ((⌊(0.159 : ℝ) * n⌋₊ : ℕ) : ℝ) ≤ 0.159 * n := Nat.floor_le (by positivity)
    by_cases h2 : n < 2
    · have : n = 1 := by omega
      have : ⌊(0.159 : ℝ) * n⌋₊ = 0 := by rw [Nat.floor_eq_zero, this]; norm_num
      omega
    · have h3 : (2 : ℝ) ≤ n := by exact_mod_cast (not_lt.1 h2)
      have : ((2 * ⌊(0.159 : ℝ) * n⌋₊ + 1 : ℕ) : ℝ) ≤ n := by push_cast; nlinarith
      exact_mod_cast this
  have hhi2 : n / 2 ≤ ⌊(0.841 : ℝ) * n⌋₊ := by
    rw [Nat.le_floor_iff (by positivity)]
    have : ((n / 2 : ℕ) : ℝ) ≤ n / 2 := Nat.cast_div_le
    nlinarith
  rw [e1, e2]
  have hmed : s.getD ⌊(0.159 : ℝ) * n⌋₊ 0 ≤ median v ∧ median v ≤ s.getD ⌊(0.841 : ℝ) * n⌋₊ 0 := by
    unfold median
    simp only
    rw [← hs, ← hnn]
    by_cases hodd : n % 2 = 1
    · rw [if_pos hodd]
      exact ⟨sorted_getD hsort (by omega) (by omega), sorted_getD hsort hhi2 hhi⟩
    · rw [if_neg hodd]
      have a1 := sorted_getD hsort (i := ⌊(0.159 : ℝ) * n⌋₊) (j := n / 2 - 1) (by omega) (by omega)
      have a2 := sorted_getD hsort (i := n / 2 - 1) (j := n / 2) (by omega) (by omega)
      have a3 := sorted_getD hsort hhi2 hhi
      constructor <;> linarith
  refine ⟨v, median v, _, _, rfl, by linarith [hmed.1], by linarith [hmed.2], ?_, ?_, ?_, hwrap⟩
  · rw [sub_sub_cancel, List.getD_eq_getElem _ _ hlo]
    exact hperm.subset (List.getElem_mem hlo)
  · rw [add_sub_cancel, List.getD_eq_getElem _ _ hhi]
    exact hperm.subset (List.getElem_mem hhi)
  · rintro rfl; simp [hv]

/-- C53, the numbers: whatever way the sample is sorted, the value returned is the mean of the two middle elements (the middle element for an odd number), and the ends of the interval are the elements
at 15.9 and 84.1 percent of the length. -/
theorem C53_values (mode : List ℝ → ℝ) (vec t : List ℝ) (hne : vec ≠ []) (hp : t.Perm vec) (ht : t.Pairwise (· ≤ ·)) : ∃ med lo hi, (geterr mode vec false).2 = .ok (med, lo, hi) ∧
    med = (t.getD ((t.length - 1) / 2) 0 + t.getD (t.length / 2) 0) / 2 ∧ med - lo = t.getD ⌊(0.159 : ℝ) * t.length⌋₊ 0 ∧ med + hi = t.getD ⌊(0.841 : ℝ) * t.length⌋₊ 0 := by
  have hs : vec.mergeSort (fun a b => decide (a ≤ b)) = t :=
    List.Perm.eq_of_pairwise (fun a b _ _ h1 h2 => le_antisymm h1 h2) (sorted_mergeSort vec) ht ((List.mergeSort_perm _ _).trans hp.symm)
  have hn : 0 < t.length := by rw [hp.length_eq]; exact List.length_pos_iff.2 hne
  have hnr : (1 : ℝ) ≤ t.length := by exact_mod_cast hn
  have hlo : ⌊(0.159 : ℝ) * t.length⌋₊ < t.length := by
    rw [Nat.floor_lt (by positivity)]; nlinarith
  have hhi : ⌊(0.841 : ℝ) * t.length⌋₊ < t.length := by
    rw [Nat.floor_lt (by positivity)]; nlinarith
  have hm : median vec = (t.getD ((t.length - 1) / 2) 0 + t.getD (t.length / 2) 0) / 2 := by
    unfold median
    simp only [hs]
    by_cases hodd : t.length % 2 = 1
    · rw [if_pos hodd]
      have : (t.length - 1) / 2 = t.length / 2 := by omega
      rw [this]; ring
    · rw [if_neg hodd]
      have : (t.length - 1) / 2 = t.length / 2 - 1 := by omega
      rw [this]
  refine ⟨median vec, median vec - t.getD ⌊(0.159 : ℝ) * t.length⌋₊ 0, t.getD ⌊(0.841 : ℝ) * t.length⌋₊ 0 - median vec, ?_, hm, by ring, by ring⟩
  unfold geterr
  simp only [Bool.false_eq_true, if_false, hs]
  unfold pyIndex
  rw [List.getElem?_eq_getElem hlo, List.getElem?_eq_getElem hhi, List.getD_eq_getElem _ _ hlo, List.getD_eq_getElem _ _ hhi]

/-- Non-vacuity of C53. -/
example : [(3 : ℝ), 1, 2] ≠ [] := by simp

/-- Non-vacuity of `C53_values`: a sample and the same sample sorted. -/
example : [(1 : ℝ), 2, 3].Perm [3, 1, 2] ∧ [(1 : ℝ), 2, 3].Pairwise (· ≤ ·) := by
  refine ⟨?_, by norm_num⟩
  exact (List.Perm.cons 1 (List.Perm.swap 3 2 [])).trans (List.Perm.swap 3 1 [2])

/-- C90 for non-angular samples (missing: angular ones, where it is false, `C90_angular_violated`): `geterr` leaves the caller's array as it was. -/
theorem C90_untouched_partial (mode : List ℝ → ℝ) (vec : List ℝ) : (geterr mode vec false).1 = vec := by simp [geterr]

/-- C90 is false for angular samples: whenever the fullest bin starts beyond a quarter turn, every negative angle in the caller's array is moved by a full turn. -/
theorem C90_angular_violated (mode : List ℝ → ℝ) (vec : List ℝ) (hm : mode vec > π / 2) (hx : ∃ x ∈ vec, x < 0) :
    (geterr mode vec true).1 = vec.map (fun x => if x < 0 then x + 2 * π else x) ∧ (geterr mode vec true).1 ≠ vec := by
  have hpi := pi_pos
  have h : (geterr mode vec true).1 = vec.map (fun x => if x < 0 then x + 2 * π else x) := by
    show wrapAngles (mode vec) vec = _
    unfold wrapAngles
    rw [if_pos hm, if_neg (by linarith)]
  refine ⟨h, ?_⟩
  rw [h]
  intro he
  obtain ⟨x, hx1, hx2⟩ := hx
  have hall : ∀ y ∈ vec.map (fun x => if x < 0 then x + 2 * π else x), ∀ z : ℝ, True := fun _ _ _ => trivial
  have : ∀ l : List ℝ, l.map (fun x => if x < 0 then x + 2 * π else x) = l → ∀ x ∈ l, ¬ x < 0 := by
    intro l
    induction l with
    | nil => intro _ x hx; simp at hx
    | cons a l ih =>
      intro he x hx
      simp only [List.map_cons, List.cons.injEq] at he
      rcases List.mem_cons.1 hx with rfl | hx
      · intro hneg
        rw [if_pos hneg] at he
        linarith [he.1]
      · exact ih he.2 x hx
  exact this vec he x hx1 hx2

/-- Non-vacuity of `C90_angular_violated`. -/
example : ∃ (mode : List ℝ → ℝ) (vec : List ℝ), mode vec > π / 2 ∧ ∃ x ∈ vec, x < 0 := ⟨fun _ => 3, [3, 3, -3], by have := pi_le_four; show (3 : ℝ) > π / 2; linarith, -3, by simp, by norm_num⟩

end Radvel
