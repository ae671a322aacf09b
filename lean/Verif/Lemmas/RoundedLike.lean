import Verif.Spec.RoundedLike
import Verif.Lemmas.Rounding

/-!
# Rounding in sums and likelihoods (lemmas for C174)
-/

namespace Radvel

open Real

theorem tiny_le2 : tiny ≤ 1e-150 := by
  unfold tiny
  rw [div_le_iff₀ (by positivity)]
  have h1 : (2 : ℝ) ^ (200 * 3) ≤ 2 ^ 1075 := pow_le_pow_right₀ (by norm_num) (by norm_num)
  have h2 : (1 : ℝ) ≤ 1e-50 * 2 ^ 200 := by norm_num
  have h3 := one_le_pow₀ h2 (n := 3)
  rw [mul_pow, ← pow_mul, show (1e-50 : ℝ) ^ 3 = 1e-150 by norm_num] at h3
  exact h3.trans (mul_le_mul_of_nonneg_left h1 (by norm_num))

theorem sum_abs_nonneg (l : List ℝ) : 0 ≤ (l.map abs).sum := List.sum_nonneg (by simp only [List.mem_map]; rintro _ ⟨y, _, rfl⟩; exact abs_nonneg y)

/-- The error of a sum in any order. -/
theorem sum_tree {A : Ops} (hA : IsDouble A) {n : Nat} {l : List ℝ} {s : ℝ} (h : IsSum A n l s) : |s - l.sum| ≤ ((1 + unitRound) ^ n - 1) * (l.map abs).sum ∧ |l.sum| ≤ (l.map abs).sum := by
  have hu := unit_pos
  have hg : ∀ n : Nat, 1 ≤ (1 + unitRound) ^ n := fun n => one_le_pow₀ (by linarith)
  induction h with
  | nil => simp
  | one x => simp
  | @add n m l k a b _ _ ih1 ih2 =>
    obtain ⟨e1, a1⟩ := ih1
    obtain ⟨e2, a2⟩ := ih2
    have hn : (1 + unitRound) ^ n ≤ (1 + unitRound) ^ max n m := pow_le_pow_right₀ (by linarith) (le_max_left _ _)
    have hm : (1 + unitRound) ^ m ≤ (1 + unitRound) ^ max n m := pow_le_pow_right₀ (by linarith) (le_max_right _ _)
    have s1 := sum_abs_nonneg l
    have s2 := sum_abs_nonneg k
    have hG := hg (max n m)
    simp only [List.sum_append, List.map_append]
    refine ⟨?_, (abs_add_le _ _).trans (add_le_add a1 a2)⟩
    have h1 := hA.add a b
    rw [pow_succ]
    generalize (1 + unitRound) ^ max n m = G at *
    have f1 : |a - l.sum| ≤ (G - 1) * (l.map abs).sum := e1.trans (mul_le_mul_of_nonneg_right (by linarith) s1)
    have f2 : |b - k.sum| ≤ (G - 1) * (k.map abs).sum := e2.trans (mul_le_mul_of_nonneg_right (by linarith) s2)
    have f3 : |a + b - (l.sum + k.sum)| ≤ (G - 1) * ((l.map abs).sum + (k.map abs).sum) := by
      rw [show a + b - (l.sum + k.sum) = (a - l.sum) + (b - k.sum) by ring]
      refine (abs_add_le _ _).trans ?_
      linarith
    have f4 := abs_of_near f3 ((abs_add_le _ _).trans (add_le_add a1 a2))
    have f5 := mul_le_mul_of_nonneg_left f4 hu.le
    refine (near_trans h1 f3).trans ?_
    nlinarith
  | perm hp _ ih => rwa [← hp.sum_eq, ← (hp.map abs).sum_eq]

theorem grow_le' (n : Nat) (h : n ≤ 1000000) : (1 + unitRound) ^ n - 1 ≤ 1.11035e-16 * n := by
  have hu := unit_pos; have hl := unit_le
  have hu1 : unitRound ≤ 1 := by norm_num at hl; linarith
  have h2 := one_add_mul_le_pow (show (-2 : ℝ) ≤ -unitRound by linarith) n
  have h3 : (1 + unitRound) ^ n * (1 + -unitRound) ^ n ≤ 1 := by
    rw [← mul_pow]
    apply pow_le_one₀ <;> nlinarith
  have hn : (n : ℝ) ≤ 1000000 := by exact_mod_cast h
  have h0 : (0 : ℝ) ≤ n := Nat.cast_nonneg n
  have h4 : (1 : ℝ) - 1.1103e-16 * n ≤ (1 + -unitRound) ^ n := by
    refine le_trans ?_ h2
    have := mul_le_mul_of_nonneg_left hl h0
    linarith
  have h5 : 0 ≤ (1 + unitRound) ^ n := by positivity
  have h7 := (mul_le_mul_of_nonneg_left h4 h5).trans h3
  generalize (1 + unitRound) ^ n = G at *
  generalize (n : ℝ) = N at *
  have h8 : G ≤ 2 := by
    have : G * (1 / 2) ≤ G * (1 - 1.1103e-16 * N) := mul_le_mul_of_nonneg_left (by norm_num; linarith) h5
    linarith
  have h9 : G * (1.1103e-16 * N) ≤ 2 * (1.1103e-16 * N) := mul_le_mul_of_nonneg_right h8 (by positivity)
  have h10 : G ≤ 1 + 2 * (1.1103e-16 * N) := by linarith
  have h11 : G * (1.1103e-16 * N) ≤ (1 + 2 * (1.1103e-16 * N)) * (1.1103e-16 * N) := mul_le_mul_of_nonneg_right h10 (by positivity)
  have h12 : 2 * (1.1103e-16 * N) * (1.1103e-16 * N) ≤ 2 * (1.1103e-16 * 1000000) * (1.1103e-16 * N) := by
    apply mul_le_mul_of_nonneg_right _ (by positivity)
    linarith
  norm_num at h7 h11 h12 ⊢
  linarith

/-- A rounded sum of rounded terms. -/
theorem list_round {A : Ops} (hA : IsDouble A) {α : Type} (l : List α) (f g : α → ℝ) (ρ κ : ℝ) (hρ1 : ρ ≤ 1e-3) (hκ : 0 ≤ κ) (h : ∀ x ∈ l, |g x - f x| ≤ ρ * |f x| + κ) (hl : l.length ≤ 1000000)
    {n : Nat} (hn : n ≤ l.length) {s : ℝ} (hs : IsSum A n (l.map g) s) :
    |s - (l.map f).sum| ≤ (ρ + 1.12e-16 * l.length) * (l.map fun x => |f x|).sum + 1.01 * (l.length * κ) := by
  have h1 := (sum_tree hA hs).1
  have hG : (1 + unitRound) ^ n - 1 ≤ 1.11035e-16 * l.length := (grow_le' n (hn.trans hl)).trans (mul_le_mul_of_nonneg_left (by exact_mod_cast hn) (by norm_num))
  have hd : |(l.map g).sum - (l.map f).sum| ≤ ρ * (l.map fun x => |f x|).sum + l.length * κ ∧ ((l.map g).map abs).sum ≤ (1 + ρ) * (l.map fun x => |f x|).sum + l.length * κ ∧ 0 ≤ (l.map fun x => |f x|).sum := by
    clear h1 hs hG hl hn
    induction l with
    | nil => simp
    | cons x l ih =>
      obtain ⟨i1, i2, i3⟩ := ih (fun y hy => h y (by simp [hy]))
      have hx := h x (by simp)
      have hy := abs_of_near hx (le_refl _)
      simp only [List.map_cons, List.sum_cons, List.length_cons, Nat.cast_add, Nat.cast_one]
      refine ⟨?_, by linarith, by positivity⟩
      rw [show g x + (l.map g).sum - (f x + (l.map f).sum) = (g x - f x) + ((l.map g).sum - (l.map f).sum) by ring]
      refine (abs_add_le _ _).trans ?_
      linarith
  obtain ⟨d1, d2, d3⟩ := hd
  have hN : (l.length : ℝ) ≤ 1000000 := by exact_mod_cast hl
  have hN0 : (0 : ℝ) ≤ l.length := Nat.cast_nonneg _
  have h2 : |s - (l.map g).sum| ≤ 1.11035e-16 * l.length * ((1 + ρ) * (l.map fun x => |f x|).sum + l.length * κ) :=
    h1.trans (mul_le_mul hG d2 (sum_abs_nonneg _) (by positivity))
  refine (near_trans h2 d1).trans ?_
  generalize (l.map fun x => |f x|).sum = F at *
  generalize (l.length : ℝ) = N at *
  have k1 : 0 ≤ N * κ := mul_nonneg hN0 hκ
  have k2 : N * (N * κ) ≤ 1000000 * (N * κ) := mul_le_mul_of_nonneg_right hN k1
  have k3 : 0 ≤ N * F := mul_nonneg hN0 d3
  have k4 : ρ * (N * F) ≤ 1e-3 * (N * F) := mul_le_mul_of_nonneg_right hρ1 k3
  rw [show 1.11035e-16 * N * ((1 + ρ) * F + N * κ) = 1.11035e-16 * (N * F + ρ * (N * F) + N * (N * κ)) by ring, show (ρ + 1.12e-16 * N) * F = ρ * F + 1.12e-16 * (N * F) by ring]
  generalize N * (N * κ) = x1 at *
  generalize ρ * (N * F) = x2 at *
  generalize N * F = x3 at *
  generalize N * κ = x4 at *
  norm_num at k4 ⊢
  linarith

/-! ### the terms -/

theorem rel_quad {u T a b a' b' q : ℝ} (hu : u ≤ 1.1103e-16) (hT : T ≤ 1e-150) (ha : 1e-100 ≤ a) (hb : 0 ≤ b) (h1 : |a' - a| ≤ u * a + T) (h2 : |b' - b| ≤ u * b + T) (h3 : |q - (a' + b')| ≤ u * |a' + b'|) :
    |q - (a + b)| ≤ 2.3e-16 * (a + b) := by
  have h4 : |a' + b' - (a + b)| ≤ u * (a + b) + 2 * T := by
    rw [show a' + b' - (a + b) = (a' - a) + (b' - b) by ring]
    exact (abs_add_le _ _).trans (by linarith)
  have hab : 1e-100 ≤ a + b := by linarith
  have hab0 : 0 ≤ a + b := le_trans (by norm_num) hab
  have h5 := abs_of_near h4 (le_of_eq (abs_of_nonneg hab0))
  have h6 := mul_le_mul hu h5 (abs_nonneg _) (by norm_num)
  have h7 := near_trans h3 h4
  have h8 := mul_le_mul_of_nonneg_right hu hab0
  refine h7.trans ?_
  generalize u * |a' + b'| = x1 at *
  generalize u * (a + b) = x2 at *
  generalize a + b = x at *
  norm_num at h6 h8 hab hT ⊢
  linarith

theorem rel_mul {u T c C q Q x α β : ℝ} (hu : u ≤ 1.1103e-16) (hC : 0 ≤ C) (hQ : 0 ≤ Q) (hα : 0 ≤ α) (hβ : 0 ≤ β) (hβ1 : β ≤ 1e-12) (hα1 : α ≤ 1e-12) (h1 : |c - C| ≤ α * C) (h2 : |q - Q| ≤ β * Q)
    (h3 : |x - c * q| ≤ u * |c * q| + T) : |x - C * Q| ≤ (1.0000001 * (α + β) + 1.111e-16) * (C * Q) + T := by
  have h4 : |c * q - C * Q| ≤ (α + β + α * β) * (C * Q) := by
    have hq : |q| ≤ Q + β * Q := abs_of_near h2 (le_of_eq (abs_of_nonneg hQ))
    have := near_mul h1 h2 (le_of_eq (abs_of_nonneg hC)) hq
    refine this.trans (le_of_eq ?_)
    ring
  have hCQ := mul_nonneg hC hQ
  have h5 := abs_of_near h4 (le_of_eq (abs_of_nonneg hCQ))
  have h6 := mul_le_mul hu h5 (abs_nonneg _) (by norm_num)
  have h7 := near_trans h3 h4
  refine h7.trans ?_
  have h8 : α * β ≤ 1e-12 * β := mul_le_mul_of_nonneg_right hα1 hβ
  have h9 := mul_le_mul_of_nonneg_right h8 hCQ
  have e1 : (α + β + α * β) * (C * Q) = α * (C * Q) + β * (C * Q) + α * β * (C * Q) := by ring
  have e2 : (1.0000001 * (α + β) + 1.111e-16) * (C * Q) = 1.0000001 * (α * (C * Q)) + 1.0000001 * (β * (C * Q)) + 1.111e-16 * (C * Q) := by ring
  have e3 : 1e-12 * β * (C * Q) = 1e-12 * (β * (C * Q)) := by ring
  rw [e1] at h6 ⊢; rw [e2]; rw [e3] at h9
  have p1 := mul_nonneg hα hCQ
  have p2 := mul_nonneg hβ hCQ
  have p3 := mul_le_mul_of_nonneg_right hα1 hCQ
  have p4 := mul_le_mul_of_nonneg_right hβ1 hCQ
  generalize u * |c * q| = x1 at *
  generalize α * β * (C * Q) = x2 at *
  generalize α * (C * Q) = x3 at *
  generalize β * (C * Q) = x4 at *
  generalize C * Q = x5 at *
  norm_num at h6 h9 p3 p4 ⊢
  linarith

theorem rel_sqrt {y X x α ν : ℝ} (hX : 0 < X) (hα : α ≤ 1e-12) (hl : ν ≤ 8.9e-16) (h1 : |x - X| ≤ α * X) (h2 : |y - √x| ≤ ν * √x) : |y - √X| ≤ (α + 8.9001e-16) * √X := by
  have hx : 0 ≤ x := by
    have := (abs_le.1 h1).1
    have h3 := mul_le_mul_of_nonneg_right hα hX.le
    norm_num at h3; linarith
  have hs := Real.sqrt_pos.2 hX
  have h3 : |√x - √X| ≤ α * √X := by
    have h4 : (√x - √X) * (√x + √X) = x - X := by
      have := Real.mul_self_sqrt hx; have := Real.mul_self_sqrt hX.le; nlinarith
    have h5 : |√x - √X| * √X ≤ α * √X * √X := by
      calc |√x - √X| * √X ≤ |√x - √X| * (√x + √X) := mul_le_mul_of_nonneg_left (by have := Real.sqrt_nonneg x; linarith) (abs_nonneg _)
        _ = |x - X| := by rw [← h4, abs_mul, abs_of_nonneg (show 0 ≤ √x + √X by have := Real.sqrt_nonneg x; linarith)]
        _ ≤ α * X := h1
        _ = α * √X * √X := by rw [mul_assoc, Real.mul_self_sqrt hX.le]
    exact le_of_mul_le_mul_right h5 hs
  have h6 := abs_of_near h3 (le_of_eq (abs_of_pos hs))
  rw [abs_of_nonneg (Real.sqrt_nonneg x)] at h6
  have h7 := mul_le_mul hl h6 (Real.sqrt_nonneg x) (by norm_num)
  refine (near_trans h2 h3).trans ?_
  have h8 := mul_le_mul_of_nonneg_right hα hs.le
  rw [add_mul]
  generalize ν * √x = x1 at *
  generalize α * √X = x2 at *
  generalize √X = x3 at *
  norm_num at h7 h8 ⊢
  linarith

theorem rel_log {y Y z α ν : ℝ} (hY : 0 < Y) (hα0 : 0 ≤ α) (hα : α ≤ 1e-12) (hl : ν ≤ 8.9e-16) (h1 : |y - Y| ≤ α * Y) (h2 : 0 < y → |z - log y| ≤ ν * |log y|) : |z - log Y| ≤ 8.9e-16 * |log Y| + 1.0001 * α := by
  have hb := abs_le.1 h1
  have h3 := mul_le_mul_of_nonneg_right hα hY.le
  have hy : 0 < y := by norm_num at h3; linarith
  have h4 : |log y - log Y| ≤ 1.00001 * α := by
    have hr : 0 < y / Y := by positivity
    rw [← Real.log_div hy.ne' hY.ne', abs_le]
    have h5 := Real.log_le_sub_one_of_pos hr
    have h6 := Real.one_sub_inv_le_log_of_pos hr
    have h7 : y / Y ≤ 1 + α := by rw [div_le_iff₀ hY]; linarith
    have h8 : 1 - α ≤ y / Y := by rw [le_div_iff₀ hY]; linarith
    refine ⟨?_, by norm_num; linarith⟩
    have h9 : (y / Y)⁻¹ ≤ 1 + 1.00001 * α := by
      rw [inv_le_iff_one_le_mul₀ hr]
      have h10 := mul_le_mul_of_nonneg_left h8 (show 0 ≤ 1 + 1.00001 * α by positivity)
      refine le_trans ?_ h10
      have h11 := mul_le_mul_of_nonneg_right hα hα0
      norm_num at h11 ⊢
      nlinarith
    linarith
  have h5 := abs_of_near h4 (le_refl _)
  have h6 := (h2 hy).trans (mul_le_mul_of_nonneg_right hl (abs_nonneg _))
  refine (near_trans h6 h4).trans ?_
  norm_num at h5 ⊢
  linarith

theorem rel_div {u T n N q Q x κ : ℝ} (hu : u ≤ 1.1103e-16) (hT0 : 0 ≤ T) (hT : T ≤ 1e-150) (hN : 0 ≤ N) (hQ : 1e-100 ≤ Q) (h1 : |n - N| ≤ u * N + T) (h2 : |q - Q| ≤ 2.3e-16 * Q) (h3 : |x - n / q| ≤ u * |n / q| + T) (hκ : κ = 1e-49) :
    |x - N / Q| ≤ 4.6e-16 * (N / Q) + κ := by
  have hQ0 : 0 < Q := lt_of_lt_of_le (by norm_num) hQ
  have hb := abs_le.1 h2
  have hq : (1 - 2.3e-16) * Q ≤ q := by linarith
  have hq0 : 0 < q := lt_of_lt_of_le (mul_pos (by norm_num) hQ0) hq
  have hr : |Q / q - 1| ≤ 2.3001e-16 := by
    rw [show Q / q - 1 = (Q - q) / q by field_simp, abs_div, abs_of_pos hq0, div_le_iff₀ hq0, abs_sub_comm]
    refine h2.trans ?_
    have := mul_le_mul_of_nonneg_left hq (show (0 : ℝ) ≤ 2.3001e-16 by norm_num)
    refine le_trans ?_ this
    norm_num
    linarith
  have hNQ : 0 ≤ N / Q := by positivity
  have hTQ : T / Q ≤ 1e-50 := by
    rw [div_le_iff₀ hQ0]
    refine hT.trans ?_
    have := mul_le_mul_of_nonneg_left hQ (show (0 : ℝ) ≤ 1e-50 by norm_num)
    refine le_trans ?_ this
    norm_num
  have hTQ0 : 0 ≤ T / Q := by positivity
  have hn : |n / Q - N / Q| ≤ u * (N / Q) + T / Q := by
    rw [← sub_div, abs_div, abs_of_pos hQ0, div_le_iff₀ hQ0]
    refine h1.trans (le_of_eq ?_)
    field_simp
  have e : n / q = n / Q * (Q / q) := by field_simp
  have h4 : |n / q - N / Q| ≤ (u * (N / Q) + T / Q) * (1 + 2.3001e-16) + N / Q * 2.3001e-16 := by
    have hq1 : |Q / q| ≤ 1 + 2.3001e-16 := abs_of_near hr (by norm_num)
    have := near_mul hn hr (le_of_eq (abs_of_nonneg hNQ)) hq1
    rw [mul_one] at this
    rw [e]
    exact this
  have hu1 := mul_le_mul_of_nonneg_right hu hNQ
  have h5 := abs_of_near h4 (le_of_eq (abs_of_nonneg hNQ))
  have h6 := mul_le_mul hu h5 (abs_nonneg _) (by norm_num)
  refine (near_trans h3 h4).trans ?_
  subst hκ
  generalize u * |n / q| = x1 at *
  generalize u * (N / Q) = x2 at *
  generalize N / Q = x3 at *
  generalize T / Q = x4 at *
  norm_num at h6 hu1 hTQ hT ⊢
  linarith

end Radvel
