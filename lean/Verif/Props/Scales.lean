import Verif.Model.Scales
import Mathlib.Tactic.NormNum
import Mathlib.Tactic.Positivity

/-! # C68 and C99: where the walkers start -/

namespace Radvel
open Classical

/-- C68 (missing: periods that are 1 or not positive, log-periods that are 0, and negative given scales; false for those, next theorems): every free parameter without a given scale gets a strictly positive
one. -/
theorem C68_positive_partial (p : FreePar) (h0 : p.scale = .fin 0) (hper : startsWith "per" p.name = true → 0 < p.val ∧ p.val ≠ 1)
    (hlog : startsWith "logper" p.name = true → p.val ≠ 0) : ∃ r : ℝ, 0 < r ∧ scaleOf p = .fin r := by
  unfold scaleOf
  rw [if_pos h0]
  unfold defaultScale
  split
  · rename_i h
    obtain ⟨h1, h2⟩ := hper h
    unfold perScale
    rw [if_pos h1]
    refine ⟨_, ?_, rfl⟩
    rw [abs_pos]
    have : Real.logb 10 p.val ≠ 0 := by
      intro h0
      rw [Real.logb_eq_zero] at h0
      rcases h0 with h | h | h | h | h | h
      · norm_num at h
      · norm_num at h
      · norm_num at h
      · exact h1.ne' h
      · exact h2 h
      · linarith
    positivity
  · split
    · rename_i h
      refine ⟨_, ?_, rfl⟩
      rw [abs_pos]
      have := hlog h
      positivity
    · split
      · exact ⟨_, by norm_num, rfl⟩
      · split
        · exact ⟨_, one_pos, rfl⟩
        · split
          · exact ⟨_, lt_of_lt_of_le (by norm_num) (le_max_right _ _), rfl⟩
          · split
            · exact ⟨_, by norm_num, rfl⟩
            · rename_i h
              refine ⟨_, ?_, rfl⟩
              rw [abs_pos]
              positivity

/-- C68, a positive scale given by the user is used. -/
theorem C68_given (p : FreePar) (r : ℝ) (hr : r ≠ 0) (h : p.scale = .fin r) : scaleOf p = .fin r := by
  unfold scaleOf
  rw [if_neg, h]
  rw [h]
  intro h0
  cases h0
  exact hr rfl

/-- C68, what a positive scale means: walkers whose random numbers for a parameter differ start at different values of it, at most one scale above the current value. -/
theorem C68_spread (rand : Nat → Nat → ℝ) (hr : ∀ i j, 0 ≤ rand i j ∧ rand i j < 1) (ps : List FreePar) (j : Nat) (p : FreePar) (hp : ps[j]? = some p) (r : ℝ) (hpos : 0 < r)
    (hs : scaleOf p = .fin r) (i i' : Nat) (hne : rand i j ≠ rand i' j) :
    ∃ x x', (walkerStart rand ps i)[j]? = some (.fin x) ∧ (walkerStart rand ps i')[j]? = some (.fin x') ∧ x ≠ x' ∧ p.val ≤ x ∧ x < p.val + r := by
  have hget : ∀ i, (walkerStart rand ps i)[j]? = some (.fin (p.val + rand i j * r)) := by
    intro i
    simp [walkerStart, List.getElem?_zipIdx, hp, hs, Fl.scale, Fl.add]
  refine ⟨_, _, hget i, hget i', ?_, ?_, ?_⟩
  · intro h
    have : rand i j * r = rand i' j * r := by linarith
    exact hne (mul_right_cancel₀ hpos.ne' this)
  · have := mul_nonneg (hr i j).1 hpos.le; linarith
  · have := mul_lt_mul_of_pos_right (hr i j).2 hpos; linarith

/-- C68 is false for a period of exactly one day: whatever the random numbers, all walkers start with the same period. -/
theorem C68_period_violated (n : Nat) (rand : Nat → Nat → ℝ) (i : Nat) :
    walkerStart rand [⟨(Key.orb .per n).render, 1, .fin 0⟩] i = [.fin 1] := by
  have h : scaleOf ⟨(Key.orb .per n).render, 1, .fin 0⟩ = .fin 0 := by
    simp [scaleOf, defaultScale, startsWith, Key.render, PName.chars, List.isPrefixOf, perScale]
  simp [walkerStart, h, Fl.scale, Fl.add]

/-- C68 is false for a log-period of 0. -/
theorem C68_logper_violated (n : Nat) (rand : Nat → Nat → ℝ) (i : Nat) :
    walkerStart rand [⟨(Key.orb .logper n).render, 0, .fin 0⟩] i = [.fin 0] := by
  have h : scaleOf ⟨(Key.orb .logper n).render, 0, .fin 0⟩ = .fin 0 := by
    simp [scaleOf, defaultScale, startsWith, Key.render, PName.chars, List.isPrefixOf]
  simp [walkerStart, h, Fl.scale, Fl.add]

/-- C68 is false for a period that is not positive: the scale is nan, and so are all starting positions. -/
theorem C68_negative_violated (n : Nat) (val : ℝ) (hv : val ≤ 0) (rand : Nat → Nat → ℝ) (i : Nat) :
    walkerStart rand [⟨(Key.orb .per n).render, val, .fin 0⟩] i = [.nan] := by
  have h : scaleOf ⟨(Key.orb .per n).render, val, .fin 0⟩ = .nan := by
    simp [scaleOf, defaultScale, startsWith, Key.render, PName.chars, List.isPrefixOf, perScale, not_lt.2 hv]
  simp [walkerStart, h, Fl.scale, Fl.add]

/-- C99 (missing: parameters whose scale an earlier run has filled in; false, next theorem): without a given scale the starting scale is a function of the name and the current value. -/
theorem C99_current_partial (p q : FreePar) (hp : p.scale = .fin 0) (hq : q.scale = .fin 0) (hn : p.name = q.name) (hv : p.val = q.val) : scaleOf p = scaleOf q := by
  unfold scaleOf; rw [if_pos hp, if_pos hq, hn, hv]

/-- C99 is false: the first run stores its scales in the parameter vector, so a second run, made after the value has changed, uses the scale of the old value instead of that of the new one. -/
theorem C99_stale_violated (n : Nat) (old new : ℝ) (ho : old ≠ 0) (hn : new ≠ 0) (hne : |old| ≠ |new|) : ∃ p : FreePar, p.name = (Key.orb .k n).render ∧ p.val = old ∧ p.scale = .fin 0 ∧
    pscales [{ setScale p with val := new }] = [.fin |0.10 * old|] ∧ pscales [{ p with val := new }] = [.fin |0.10 * new|] ∧ |0.10 * old| ≠ |0.10 * new| := by
  have hd : ∀ v : ℝ, v ≠ 0 → defaultScale (Key.orb .k n).render v = .fin |0.10 * v| := by
    intro v hv
    simp [defaultScale, startsWith, Key.render, PName.chars, List.isPrefixOf, hv]
  have hz : |(0.10 : ℝ) * old| ≠ 0 := by rw [abs_ne_zero]; positivity
  refine ⟨⟨(Key.orb .k n).render, old, .fin 0⟩, rfl, rfl, rfl, ?_, ?_, ?_⟩
  · simp only [pscales, List.map_cons, List.map_nil, setScale]
    unfold scaleOf
    simp only [if_true]
    rw [hd old ho, if_neg]
    intro h; exact hz (Fl.fin.inj h)
  · simp only [pscales, List.map_cons, List.map_nil, scaleOf, if_true]
    rw [hd new hn]
  · rw [abs_mul, abs_mul]
    intro h
    exact hne (mul_left_cancel₀ (by norm_num) h)

/-- Non-vacuity of `C68_positive_partial`, `C68_given`, `C68_spread` and `C99_current_partial`: a two-day period. -/
example : ∃ (p : FreePar) (r : ℝ), p.scale = .fin 0 ∧ startsWith "per" p.name = true ∧ 0 < p.val ∧ p.val ≠ 1 ∧ scaleOf p = .fin r ∧ 0 < r := by
  obtain ⟨r, h1, h2⟩ := C68_positive_partial ⟨(Key.orb .per 1).render, 2, .fin 0⟩ rfl (fun _ => ⟨by norm_num, by norm_num⟩) (fun h => by simp [startsWith, Key.render, PName.chars, List.isPrefixOf] at h)
  exact ⟨_, r, rfl, by simp [startsWith, Key.render, PName.chars, List.isPrefixOf], by norm_num, by norm_num, h2, h1⟩

example : scaleOf ⟨"k1".toList, 3, .fin 2⟩ = .fin 2 := C68_given _ 2 two_ne_zero rfl

end Radvel
