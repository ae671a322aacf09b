import Verif.Model.Postprocess
import Verif.Lemmas.Quantile

/-! Lemmas on the numbers that are reported for a parameter. -/

namespace Radvel
open Real

theorem strFloat_spec (x : ℝ) (h : ∃ (z : ℤ) (k : ℤ), x = z * 10 ^ (-k)) : (strFloat x).val = x ∧ (strFloat x).exp ≤ -1 := by
  have hex : ∃ d : Nat, ∃ m : ℤ, x * 10 ^ (d + 1) = m := by
    obtain ⟨z, k, rfl⟩ := h
    refine ⟨k.toNat, z * 10 ^ ((k.toNat : ℤ) + 1 - k).toNat, ?_⟩
    have h1 : (((k.toNat : ℤ) + 1 - k).toNat : ℤ) = (k.toNat : ℤ) + 1 - k := Int.toNat_of_nonneg (by omega)
    push_cast
    rw [mul_assoc, ← zpow_natCast (10 : ℝ) (k.toNat + 1), ← zpow_add₀ (by norm_num), ← zpow_natCast (10 : ℝ) (((k.toNat : ℤ) + 1 - k).toNat), h1]
    congr 2
    push_cast
    ring
  classical
  unfold strFloat
  rw [dif_pos hex]
  obtain ⟨m, hm⟩ := Nat.find_spec hex
  constructor
  · unfold Dec.val
    simp only
    rw [hm, Int.floor_intCast, ← hm, mul_assoc, ← zpow_natCast, ← zpow_add₀ (by norm_num)]
    push_cast
    rw [add_neg_cancel]
    simp
  · simp only
    omega

theorem truncInt_int (z : ℤ) : truncInt (z : ℝ) = z := by unfold truncInt; simp

/-- Whether `sigfig` takes the branch for whole numbers. -/
def Dec.Whole (d : Dec) : Prop := (d.exp = -1 ∧ d.m % 10 = 0) ∨ d.exp = 0

theorem whole_val (d : Dec) (h : d.Whole) : ∃ z : ℤ, d.val = z := by
  rcases h with ⟨h1, h2⟩ | h
  · refine ⟨d.m / 10, ?_⟩
    unfold Dec.val
    rw [h1]
    have : d.m = 10 * (d.m / 10) := by omega
    rw [this]
    push_cast
    have h3 : 10 * (d.m / 10) / 10 = d.m / 10 := by omega
    rw [h3]
    norm_num
    ring
  · exact ⟨d.m, by unfold Dec.val; rw [h]; simp⟩

theorem unit_le_val (d : Dec) (hpos : 0 < d.val) : (10 : ℝ) ^ d.exp ≤ d.val := by
  have h10 : (0 : ℝ) < 10 ^ d.exp := by positivity
  have hm : 0 < (d.m : ℝ) := by
    unfold Dec.val at hpos
    exact (pos_iff_pos_of_mul_pos hpos).2 h10
  have : (1 : ℝ) ≤ d.m := by exact_mod_cast hm
  unfold Dec.val
  nlinarith

/-- `sigfig` with one error moves the value by at most half of the error. -/
theorem sigfig_within (d : Dec) (hpos : 0 < d.val) (hexp : d.exp ≤ 0) (hsig : roundSig d.val 2 = d.val) (med : ℝ) :
    ∃ v F, (∀ fuel, F ≤ fuel → ∃ h, sigfig fuel med d none = some (v, d.val, h)) ∧ |v - med| ≤ d.val / 2 := by
  have hn : ∀ fuel, sigfig fuel med d none = sigfig fuel med d (some d) := fun _ => rfl
  have hdec : decimals d d = d.exp := by unfold decimals; simp
  have hu := unit_le_val d hpos
  by_cases h1 : d.exp < -1
  · obtain ⟨m, F, h2, h3, h4⟩ := C91_decimals med d d (by rw [hdec]; exact h1)
    refine ⟨m, F, fun fuel hf => ⟨_, by rw [hn, h2 fuel hf]⟩, ?_⟩
    by_cases hm : med = 0
    · rw [h3.2 hm, hm, sub_zero, abs_zero]; linarith
    · obtain ⟨q, rfl, _⟩ := h4 hm
      rw [hdec, abs_of_nonpos hexp]
      have := pyRound_dist med (-d.exp + q)
      have h5 : (10 : ℝ) ^ (-(-d.exp + (q : ℤ))) ≤ 10 ^ d.exp := zpow_le_zpow_right₀ (by norm_num) (by omega)
      linarith
  · by_cases hw : d.Whole
    · refine ⟨(roundEven med : ℝ), 0, fun fuel _ => ⟨(roundEven d.val : ℝ), ?_⟩, ?_⟩
      · rw [hn, C91_whole fuel med d d (by rw [hdec]; rcases hw with ⟨a, b⟩ | a
                                           · exact .inl ⟨a, b, b⟩
                                           · exact .inr a), hsig]
        obtain ⟨z, hz⟩ := whole_val d hw
        rw [hz, truncInt_int]
      · have := roundEven_dist med
        obtain ⟨z, hz⟩ := whole_val d hw
        have : (1 : ℝ) ≤ d.val := by
          rw [hz] at hpos ⊢
          exact_mod_cast hpos
        linarith
    · have he : d.exp = -1 := by
        have : d.exp ≠ 0 := fun h => hw (.inr h)
        omega
      refine ⟨pyRound med 1, 0, fun fuel _ => ⟨d.val, ?_⟩, ?_⟩
      · unfold sigfig
        simp only [Option.getD_none, he, gt_iff_lt, lt_self_iff_false, if_false]
        rw [if_neg]
        · rfl
        · rintro (⟨⟨_, h2⟩, _⟩ | h)
          · refine hw (.inl ⟨he, ?_⟩)
            simpa [Dec.lastZero] using h2
          · exact absurd h (by decide)
      · have := pyRound_dist med 1
        rw [he] at hu
        norm_num at this hu ⊢
        linarith

theorem roundSig_decimal (x : ℝ) : ∃ (z : ℤ) (k : ℤ), roundSig x 2 = z * 10 ^ (-k) := by
  unfold roundSig
  split_ifs
  · exact ⟨0, 0, by simp⟩
  · refine ⟨roundEven (x * 10 ^ (2 - ⌊logb 10 |x|⌋ - 1)), 2 - ⌊logb 10 |x|⌋ - 1, ?_⟩
    unfold pyRound
    rw [zpow_neg, div_eq_mul_inv]

/-- The numbers shown with a positive rounded error. -/
theorem shownWith_spec (maxlike med y : ℝ) (hpos : 0 < roundSig y 2) : ∃ r F, (∀ fuel, F ≤ fuel → shownWith fuel maxlike med (roundSig y 2) = some r) ∧ r.err = roundSig y 2 ∧
    |r.med - med| ≤ roundSig y 2 / 2 ∧ |r.max - maxlike| ≤ roundSig y 2 / 2 := by
  obtain ⟨h1, h2⟩ := strFloat_spec _ (roundSig_decimal y)
  have hid := C54_idempotent y 2 (by norm_num)
  set x := roundSig y 2 with hx
  set d := strFloat x with hd
  have h3 : (strAfter d).val = x ∧ (strAfter d).exp ≤ 0 := by
    unfold strAfter
    split_ifs with hw
    · have hw' : d.Whole := by
        rcases hw with ⟨a, b⟩ | a
        · exact .inl ⟨a, by simpa [Dec.lastZero] using b⟩
        · exact .inr a
      obtain ⟨z, hz⟩ := whole_val d hw'
      rw [h1] at hz
      rw [h1, hid, hz, truncInt_int]
      exact ⟨by unfold Dec.val; simp, le_refl _⟩
    · exact ⟨h1, by omega⟩
  obtain ⟨v, F, h4, h5⟩ := sigfig_within d (by rw [h1]; exact hpos) (by omega) (by rw [h1]; exact hid) med
  obtain ⟨v', F', h6, h7⟩ := sigfig_within (strAfter d) (by rw [h3.1]; exact hpos) h3.2 (by rw [h3.1]; exact hid) maxlike
  refine ⟨⟨x, v, v'⟩, max F F', ?_, rfl, by rw [h1] at h5; exact h5, by rw [h3.1] at h7; exact h7⟩
  intro fuel hf
  obtain ⟨_, e1⟩ := h4 fuel (le_trans (le_max_left _ _) hf)
  obtain ⟨_, e2⟩ := h6 fuel (le_trans (le_max_right _ _) hf)
  unfold shownWith
  rw [← hd, e1]
  simp only
  rw [e2]
  simp only [h3.1]

theorem report_spec {n : Nat} (maxlike : ℝ) (col : Fin n → Option ℝ) (h : ∃ j x, col j = some x) : ∃ lo med hi r F, quantile col 0.159 = some lo ∧ quantile col 0.5 = some med ∧ quantile col 0.841 = some hi ∧
    lo ≤ med ∧ med ≤ hi ∧ (∀ fuel, F ≤ fuel → report fuel maxlike col = .ok (some r)) ∧ r.err = roundSig ((hi - lo) / 2) 2 ∧ |r.med - med| ≤ r.err / 2 ∧ |r.max - maxlike| ≤ r.err / 2 := by
  have q1 := quantile_eq col h (q := 0.159) (by norm_num) (by norm_num)
  have q2 := quantile_eq col h (q := 0.5) (by norm_num) (by norm_num)
  have q3 := quantile_eq col h (q := 0.841) (by norm_num) (by norm_num)
  have m1 := quantile_mono col (by norm_num) (by norm_num) (by norm_num) q1 q2
  have m2 := quantile_mono col (by norm_num) (by norm_num) (by norm_num) q2 q3
  generalize interp (sortedCol col) ((((sortedCol col).length : ℝ) - 1) * 0.159) = lo at *
  generalize interp (sortedCol col) ((((sortedCol col).length : ℝ) - 1) * 0.5) = med at *
  generalize interp (sortedCol col) ((((sortedCol col).length : ℝ) - 1) * 0.841) = hi at *
  have herr : (hi - med + (med - lo)) / 2 = (hi - lo) / 2 := by ring
  refine ⟨lo, med, hi, ?_⟩
  by_cases hpos : 0 < roundSig ((hi - lo) / 2) 2
  · obtain ⟨r, F, h1, h2, h3, h4⟩ := shownWith_spec maxlike med _ hpos
    refine ⟨r, F, q1, q2, q3, m1, m2, ?_, h2, by rw [h2]; exact h3, by rw [h2]; exact h4⟩
    intro fuel hf
    unfold report
    rw [q1, q2, q3]
    simp only [herr]
    rw [if_pos hpos, h1 fuel hf]
  · refine ⟨⟨roundSig ((hi - lo) / 2) 2, med, maxlike⟩, 0, q1, q2, q3, m1, m2, ?_, rfl, ?_, ?_⟩
    · intro fuel _
      unfold report
      rw [q1, q2, q3]
      simp only [herr]
      rw [if_neg hpos]
    all_goals
      have : hi = lo := by
        by_contra hne
        have hlt : lo < hi := lt_of_le_of_ne (m1.trans m2) (fun h => hne h.symm)
        exact hpos ((C54_sign _ 2 (by norm_num)).1 (by linarith))
      simp [this, C54_zero]

theorem report_nan {n : Nat} (fuel : Nat) (maxlike : ℝ) (col : Fin n → Option ℝ) (h : ∀ j, col j = none) : report fuel maxlike col = .error .valueError := by
  unfold report
  rw [quantile_none col h]

end Radvel
