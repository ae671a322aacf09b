import Verif.Spec.Stats
import Mathlib.Tactic.Ring
import Mathlib.Tactic.FieldSimp
import Mathlib.Tactic.Linarith
import Mathlib.Algebra.Order.BigOperators.Group.List

/-! Facts about the mean and the population variance. -/

namespace Radvel

theorem sum_map_affine (l : List ℝ) (a b : ℝ) : (l.map fun x => a * x + b).sum = a * l.sum + l.length * b := by
  induction l with
  | nil => simp
  | cons x l ih => simp only [List.map_cons, List.sum_cons, List.length_cons, ih]; push_cast; ring

theorem mean_affine (l : List ℝ) (hl : l ≠ []) (a b : ℝ) : mean (l.map fun x => a * x + b) = a * mean l + b := by
  unfold mean
  rw [sum_map_affine, List.length_map]
  have : (l.length : ℝ) ≠ 0 := by
    have := List.length_pos_iff.2 hl
    exact_mod_cast this.ne'
  field_simp

theorem mean_scale (l : List ℝ) (a : ℝ) : mean (l.map fun x => a * x) = a * mean l := by
  have h := sum_map_affine l a 0
  simp only [add_zero, mul_zero] at h
  unfold mean
  rw [h, List.length_map, mul_div_assoc]

theorem pvar_affine (l : List ℝ) (a b : ℝ) : pvar (l.map fun x => a * x + b) = a ^ 2 * pvar l := by
  by_cases hl : l = []
  · subst hl; simp [pvar, mean]
  · unfold pvar
    rw [mean_affine l hl, List.map_map, ← mean_scale (l.map fun x => (x - mean l) ^ 2) (a ^ 2), List.map_map]
    congr 1
    apply List.map_congr_left
    intro x _
    simp only [Function.comp]
    ring

theorem mean_nonneg (l : List ℝ) (h : ∀ x ∈ l, 0 ≤ x) : 0 ≤ mean l := div_nonneg (List.sum_nonneg h) (Nat.cast_nonneg _)

theorem mean_eq_zero (l : List ℝ) (h : ∀ x ∈ l, 0 ≤ x) (h0 : mean l = 0) : ∀ x ∈ l, x = 0 := by
  intro x hx
  unfold mean at h0
  have hlen : (l.length : ℝ) ≠ 0 := by
    have := List.length_pos_of_mem hx
    exact_mod_cast this.ne'
  have hs : l.sum = 0 := by rcases div_eq_zero_iff.1 h0 with h1 | h1; exact h1; exact absurd h1 hlen
  have h1 : x ≤ l.sum := List.single_le_sum h x hx
  exact le_antisymm (by rw [← hs]; exact h1) (h x hx)

theorem mean_of_all_eq (l : List ℝ) (hl : l ≠ []) (c : ℝ) (h : ∀ x ∈ l, x = c) : mean l = c := by
  have : l.sum = l.length * c := by
    have h2 : l = List.replicate l.length c := List.eq_replicate_iff.2 ⟨rfl, h⟩
    rw [h2, List.sum_replicate, List.length_replicate, nsmul_eq_mul]
  unfold mean
  rw [this]
  have : (l.length : ℝ) ≠ 0 := by
    have := List.length_pos_iff.2 hl
    exact_mod_cast this.ne'
  field_simp

theorem pvar_nonneg (l : List ℝ) : 0 ≤ pvar l := mean_nonneg _ (by intro x hx; obtain ⟨y, _, rfl⟩ := List.mem_map.1 hx; positivity)

theorem pvar_eq_zero_iff (l : List ℝ) : pvar l = 0 ↔ ∀ x ∈ l, ∀ y ∈ l, x = y := by
  constructor
  · intro h
    have h1 := mean_eq_zero _ (by intro x hx; obtain ⟨y, _, rfl⟩ := List.mem_map.1 hx; positivity) h
    have h2 : ∀ x ∈ l, x = mean l := by
      intro x hx
      have := h1 _ (List.mem_map.2 ⟨x, hx, rfl⟩)
      have := pow_eq_zero_iff (two_ne_zero) |>.1 this
      linarith
    intro x hx y hy
    rw [h2 x hx, h2 y hy]
  · intro h
    by_cases hl : l = []
    · subst hl; simp [pvar, mean]
    · obtain ⟨c, hc⟩ := List.exists_mem_of_ne_nil l hl
      have hm : mean l = c := mean_of_all_eq l hl c (fun x hx => h x hx c hc)
      unfold pvar
      apply mean_of_all_eq _ (by simpa using hl)
      intro y hy
      obtain ⟨x, hx, rfl⟩ := List.mem_map.1 hy
      rw [hm, h x hx c hc]
      ring

theorem mean_perm {l l' : List ℝ} (h : l.Perm l') : mean l = mean l' := by
  unfold mean; rw [h.sum_eq, h.length_eq]

theorem pvar_perm {l l' : List ℝ} (h : l.Perm l') : pvar l = pvar l' := by
  unfold pvar; rw [mean_perm h]; exact mean_perm (h.map _)

end Radvel
