import Verif.Model.Annotate
import Verif.Lemmas.Corner
import Verif.Lemmas.Postprocess
import Verif.Props.TexLabels

/-! # Lemmas for C165 -/

namespace Radvel

theorem roundEven_mono_int {x : ℝ} {z : ℤ} (h : x ≤ z) : roundEven x ≤ z := by
  by_contra hc
  push Not at hc
  have h1 : (z : ℝ) + 1 ≤ roundEven x := by exact_mod_cast hc
  have h2 := abs_le.1 (roundEven_dist x)
  linarith [h2.2]

theorem roundEven_abs_int {x : ℝ} {z : ℤ} (h : |x| ≤ z) : |(roundEven x : ℝ)| ≤ z := by
  rw [abs_le] at h ⊢
  have h1 := roundEven_mono_int h.2
  have h2 := roundEven_mono_int (x := -x) (z := z) (by linarith [h.1])
  rw [roundEven_neg] at h2
  constructor
  · have : -z ≤ roundEven x := by omega
    exact_mod_cast this
  · exact_mod_cast h1

theorem roundEven_eq_zero {x : ℝ} : roundEven x = 0 ↔ |x| ≤ 1 / 2 := by
  constructor
  · intro h
    have := roundEven_dist x
    rw [h] at this
    simpa using this
  · intro h
    rw [abs_le] at h
    have h1 := Int.floor_add_fract x
    have h0 := Int.fract_nonneg x
    have h2 := Int.fract_lt_one x
    by_cases hx : 0 ≤ x
    · have hf : ⌊x⌋ = 0 := Int.floor_eq_iff.2 ⟨by simpa using hx, by push_cast; linarith⟩
      unfold roundEven
      rw [hf] at h1 ⊢
      split_ifs with a b c
      · rfl
      · push_cast at h1; linarith
      · rfl
      · simp at c
    · push Not at hx
      have hf : ⌊x⌋ = -1 := Int.floor_eq_iff.2 ⟨by push_cast; linarith, by push_cast; linarith⟩
      unfold roundEven
      rw [hf] at h1 ⊢
      push_cast at h1
      split_ifs with a b c
      · linarith
      · rfl
      · simp at c
      · rfl

theorem pyRound_eq_zero {x : ℝ} {d : ℤ} : pyRound x d = 0 ↔ |x * 10 ^ d| ≤ 1 / 2 := by
  have h10 : (10 : ℝ) ^ d ≠ 0 := by positivity
  unfold pyRound
  rw [div_eq_zero_iff, or_iff_left h10, Int.cast_eq_zero, roundEven_eq_zero]

/-- Rounding a number that is already rounded to more decimals does not turn zero into something else. -/
theorem pyRound_zero_twice {x : ℝ} {d e : ℤ} (h : d < e) (h0 : pyRound x d = 0) : pyRound (pyRound x e) d = 0 := by
  rw [pyRound_eq_zero] at h0 ⊢
  obtain ⟨j, hj⟩ : ∃ j : Nat, e = d + (j + 1 : ℕ) := ⟨(e - d - 1).toNat, by omega⟩
  have hd : (0 : ℝ) < 10 ^ d := by positivity
  have he : (10 : ℝ) ^ e = 10 ^ d * 10 ^ (j + 1) := by rw [hj, zpow_add₀ (by norm_num), zpow_natCast]
  have h1 : |x * 10 ^ e| ≤ ((5 * 10 ^ j : ℤ) : ℝ) := by
    rw [he, ← mul_assoc, abs_mul, abs_of_pos (by positivity : (0 : ℝ) < 10 ^ (j + 1))]
    push_cast
    have : (0 : ℝ) < 10 ^ (j + 1) := by positivity
    have h2 := mul_le_mul_of_nonneg_right h0 this.le
    rw [pow_succ] at h2 ⊢
    linarith
  have h2 := roundEven_abs_int h1
  have : pyRound x e * 10 ^ d = roundEven (x * 10 ^ e) / 10 ^ (j + 1) := by
    unfold pyRound
    rw [he]
    field_simp
  rw [this, abs_div, abs_of_pos (by positivity : (0 : ℝ) < 10 ^ (j + 1)), div_le_iff₀ (by positivity)]
  push_cast at h2
  rw [pow_succ]
  linarith

theorem pyRound_idem (x : ℝ) (d : ℤ) : pyRound (pyRound x d) d = pyRound x d := by
  have : pyRound x d = roundEven (x * 10 ^ d) * 10 ^ (-d) := by
    unfold pyRound
    rw [zpow_neg, div_eq_mul_inv]
  rw [this]
  exact pyRound_multiple _ _

/-- A value that `sigfig` has made is not changed by `sigfig` with the same error. -/
theorem sigfig_again (d : Dec) (hexp : d.exp ≤ 0) (hsig : roundSig d.val 2 = d.val) (med v : ℝ) (h : ∃ F, ∀ fuel, F ≤ fuel → ∃ a b, sigfig fuel med d none = some (v, a, b)) :
    ∃ F, ∀ fuel, F ≤ fuel → ∃ b, sigfig fuel v d none = some (v, d.val, b) := by
  have hn : ∀ fuel x, sigfig fuel x d none = sigfig fuel x d (some d) := fun _ _ => rfl
  have hdec : decimals d d = d.exp := by unfold decimals; simp
  obtain ⟨F, hF⟩ := h
  by_cases h1 : d.exp < -1
  · obtain ⟨m, F1, a1, a2, a3⟩ := C91_decimals med d d (by rw [hdec]; exact h1)
    obtain ⟨m', F2, b1, b2, b3⟩ := C91_decimals v d d (by rw [hdec]; exact h1)
    obtain ⟨a, b, hv⟩ := hF (max F F1) (le_max_left _ _)
    rw [hn, a1 _ (le_max_right _ _)] at hv
    cases hv
    have hmm : m' = v := by
      by_cases hm : med = 0
      · have : v = 0 := a2.2 hm
        rw [b2.2 this, this]
      · obtain ⟨q, e1, e2⟩ := a3 hm
        have hm0 : v ≠ 0 := fun h => hm (a2.1 h)
        obtain ⟨q', e1', e2'⟩ := b3 hm0
        have hm' : m' ≠ 0 := fun h => hm0 (b2.1 h)
        have hq : pyRound v (|decimals d d| + q) = v := by rw [e1]; exact pyRound_idem _ _
        rcases lt_trichotomy q' q with hlt | heq | hgt
        · exfalso
          apply hm'
          rw [e1', e1]
          exact pyRound_zero_twice (by omega) (e2 q' hlt)
        · rw [e1', heq, hq]
        · have := e2' q hgt
          rw [hq] at this
          exact absurd this hm0
    refine ⟨F2, fun fuel hf => ⟨d.val, ?_⟩⟩
    rw [hn, b1 fuel hf, hmm]
  · by_cases hw : d.Whole
    · have hsf : ∀ fuel x, sigfig fuel x d none = some ((roundEven x : ℝ), d.val, (roundEven d.val : ℝ)) := by
        intro fuel x
        rw [hn, C91_whole fuel x d d (by rw [hdec]; rcases hw with ⟨a, b⟩ | a
                                         · exact .inl ⟨a, b, b⟩
                                         · exact .inr a), hsig]
        obtain ⟨z, hz⟩ := whole_val d hw
        rw [hz, truncInt_int]
      obtain ⟨a, b, hv⟩ := hF F le_rfl
      rw [hsf] at hv
      cases hv
      exact ⟨0, fun fuel _ => ⟨_, by rw [hsf, roundEven_int]⟩⟩
    · have he : d.exp = -1 := by
        have : d.exp ≠ 0 := fun h => hw (.inr h)
        omega
      have hsf : ∀ fuel x, sigfig fuel x d none = some (pyRound x 1, d.val, d.val) := by
        intro fuel x
        unfold sigfig
        simp only [Option.getD_none, he, gt_iff_lt, lt_self_iff_false, if_false]
        rw [if_neg]
        · rfl
        · rintro (⟨⟨_, h2⟩, _⟩ | h)
          · refine hw (.inl ⟨he, ?_⟩)
            simpa [Dec.lastZero] using h2
          · exact absurd h (by decide)
      obtain ⟨a, b, hv⟩ := hF F le_rfl
      rw [hsf] at hv
      cases hv
      exact ⟨0, fun fuel _ => ⟨_, by rw [hsf, pyRound_idem]⟩⟩

/-- `sigfig` does not distinguish an error that is a Python integer from the float with the same value. -/
theorem sigfig_intError (fuel : Nat) (med : ℝ) (m : ℤ) : sigfig fuel med ⟨m, 0⟩ none = sigfig fuel med (strFloat m) none := by
  obtain ⟨h1, h2⟩ := strFloat_spec (m : ℝ) ⟨m, 0, by simp⟩
  have hex : ∃ d : Nat, ∃ z : ℤ, (m : ℝ) * 10 ^ (d + 1) = z := ⟨0, m * 10, by push_cast; ring⟩
  have hs : strFloat (m : ℝ) = ⟨m * 10, -1⟩ := by
    classical
    unfold strFloat
    rw [dif_pos hex]
    have h0 : Nat.find hex = 0 := by
      rw [Nat.find_eq_zero]
      exact ⟨m * 10, by push_cast; ring⟩
    rw [h0]
    have : (m : ℝ) * 10 ^ (0 + 1) = ((m * 10 : ℤ) : ℝ) := by push_cast; ring
    rw [this, Int.floor_intCast]
    rfl
  have hd : ∀ d : Dec, decimals d d = d.exp := fun d => by unfold decimals; simp
  show sigfig fuel med _ (some _) = sigfig fuel med _ (some _)
  rw [C91_whole _ _ _ _ (.inr (hd _)), hs, C91_whole _ _ _ _ (.inl ⟨hd _, by simp, by simp⟩)]
  have hv : (⟨m, 0⟩ : Dec).val = (⟨m * 10, -1⟩ : Dec).val := by
    unfold Dec.val
    push_cast
    norm_num
    ring
  rw [hv]

/-- The numbers of a line with an error of two digits. -/
theorem anoNums_spec (val y : ℝ) (h : 1e-15 < roundSig y 2) : ∃ v F, (∀ fuel, F ≤ fuel → anoNums fuel val (roundSig y 2) = some (.interval v (roundSig y 2))) ∧ |v - val| ≤ roundSig y 2 / 2 := by
  obtain ⟨h1, h2⟩ := strFloat_spec _ (roundSig_decimal y)
  have hid := C54_idempotent y 2 (by norm_num)
  obtain ⟨v, F, h4, h5⟩ := sigfig_within (strFloat (roundSig y 2)) (by rw [h1]; linarith) (by omega) (by rw [h1]; exact hid) val
  refine ⟨v, F, fun fuel hf => ?_, by rw [h1] at h5; exact h5⟩
  obtain ⟨b, hb⟩ := h4 fuel hf
  unfold anoNums
  rw [if_pos h, hb, h1]

/-- The reported numbers of a parameter are shown as they are. -/
theorem anoNums_reported (maxlike med y : ℝ) (hpos : 1e-15 < roundSig y 2) (r : Reported) (h : ∃ F, ∀ fuel, F ≤ fuel → shownWith fuel maxlike med (roundSig y 2) = some r) :
    ∃ F, ∀ fuel, F ≤ fuel → anoNums fuel r.med r.err = some (.interval r.med r.err) := by
  obtain ⟨h1, h2⟩ := strFloat_spec _ (roundSig_decimal y)
  have hid := C54_idempotent y 2 (by norm_num)
  obtain ⟨r', F', h3, h4, _, _⟩ := shownWith_spec maxlike med y (by linarith)
  obtain ⟨F, hF⟩ := h
  have hr : r' = r := by
    have := h3 _ (le_max_right F F')
    rw [hF _ (le_max_left F F')] at this
    exact (Option.some.inj this).symm
  rw [hr] at h4
  obtain ⟨F2, h5⟩ := sigfig_again (strFloat (roundSig y 2)) (by omega) (by rw [h1]; exact hid) med r.med (by
    refine ⟨F, fun fuel hf => ?_⟩
    have := hF fuel hf
    unfold shownWith at this
    rcases hs : sigfig fuel med (strFloat (roundSig y 2)) none with _ | ⟨a, b, c⟩
    · rw [hs] at this; cases this
    · rw [hs] at this
      simp only at this
      rcases hs2 : sigfig fuel maxlike (strAfter (strFloat (roundSig y 2))) none with _ | ⟨a', b', c'⟩
      · rw [hs2] at this; cases this
      · rw [hs2] at this
        cases this
        exact ⟨b, c, rfl⟩)
  refine ⟨F2, fun fuel hf => ?_⟩
  obtain ⟨b, hb⟩ := h5 fuel hf
  unfold anoNums
  rw [h4, if_pos hpos, hb, h1]

end Radvel
