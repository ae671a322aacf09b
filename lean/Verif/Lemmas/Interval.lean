import Mathlib.Data.Real.Basic
import Mathlib.Algebra.Order.Floor.Ring
import Mathlib.Data.Int.Order.Basic
import Mathlib.Tactic.Linarith
import Mathlib.Tactic.FieldSimp
import Mathlib.Tactic.Positivity
import Mathlib.Tactic.Ring

/-!
# Interval arithmetic with integers

Used by the proof of C167. An interval has integer ends in units of `2⁻²⁰`; every operation rounds outwards, so that membership is preserved (the `mem_` theorems).
-/

namespace Radvel

/-- The number of units in 1. -/
def ivS : Int := 1048576

/-- An interval, in units of `1 / ivS`. -/
structure Iv where
  a : Int
  b : Int

namespace Iv

/-- `x` lies in the interval. -/
def Mem (i : Iv) (x : ℝ) : Prop := (i.a : ℝ) ≤ x * 1048576 ∧ x * 1048576 ≤ i.b

def add (i j : Iv) : Iv := ⟨i.a + j.a, i.b + j.b⟩
def sub (i j : Iv) : Iv := ⟨i.a - j.b, i.b - j.a⟩

/-- `t` for numbers that are not negative, `e` for negative ones. -/
def nn {α : Type} (x : Int) (t e : α) : α :=
  match x with
  | .ofNat _ => t
  | .negSucc _ => e

theorem nn_eq {α : Type} (x : Int) (t e : α) : nn x t e = if 0 ≤ x then t else e := by
  unfold nn
  split
  · exact (if_pos (Int.natCast_nonneg _)).symm
  · exact (if_neg (not_le.mpr (Int.negSucc_lt_zero _))).symm

def min2 (x y : Int) : Int := nn (y - x) x y
def max2 (x y : Int) : Int := nn (y - x) y x

/-- Division by `ivS`, rounded up. -/
def up (x : Int) : Int := -((-x) / 1048576)

/-- The product when the numbers of the first interval are not negative. -/
def mulq (i j : Iv) : Iv := ⟨nn j.a i.a i.b * j.a / 1048576, up (nn j.b i.b i.a * j.b)⟩

/-- The product, in all cases. -/
def mulg (i j : Iv) : Iv :=
  ⟨min2 (min2 (i.a * j.a) (i.a * j.b)) (min2 (i.b * j.a) (i.b * j.b)) / 1048576, up (max2 (max2 (i.a * j.a) (i.a * j.b)) (max2 (i.b * j.a) (i.b * j.b)))⟩

def mul (i j : Iv) : Iv := nn i.a (mulq i j) (nn j.a (mulq j i) (mulg i j))

/-- The product of two intervals of numbers that are not negative. -/
def mulp (i j : Iv) : Iv := ⟨i.a * j.a / 1048576, up (i.b * j.b)⟩

/-- The reciprocal of an interval of positive numbers. -/
def inv (i : Iv) : Iv := ⟨1099511627776 / i.b, -((-1099511627776) / i.a)⟩

/-- The fraction `n / d` with `0 < d`. -/
def frac (n d : Int) : Iv := ⟨n * 1048576 / d, -((-(n * 1048576)) / d)⟩

def sq (i : Iv) : Iv :=
  nn i.a (mulp i i) (nn (-i.b) ⟨i.b * i.b / 1048576, up (i.a * i.a)⟩ ⟨0, up (max2 (i.a * i.a) (i.b * i.b))⟩)

def meet (i j : Iv) : Iv := ⟨max2 i.a j.a, min2 i.b j.b⟩

theorem min2_eq (x y : Int) : min2 x y = min x y := by unfold min2; rw [nn_eq]; split_ifs <;> omega
theorem max2_eq (x y : Int) : max2 x y = max x y := by unfold max2; rw [nn_eq]; split_ifs <;> omega

theorem div_le (x d : Int) (hd : 0 < d) : ((x / d : Int) : ℝ) * d ≤ x := by
  have := Int.ediv_mul_le x (ne_of_gt hd)
  exact_mod_cast this

theorem le_up (x d : Int) (hd : 0 < d) : (x : ℝ) ≤ ((-((-x) / d) : Int) : ℝ) * d := by
  have := div_le (-x) d hd
  push_cast at this ⊢
  linarith

theorem mem_add {i j : Iv} {x y : ℝ} (hx : i.Mem x) (hy : j.Mem y) : (i.add j).Mem (x + y) := by
  unfold Mem add at *
  push_cast
  constructor <;> linarith [hx.1, hx.2, hy.1, hy.2]

theorem mem_sub {i j : Iv} {x y : ℝ} (hx : i.Mem x) (hy : j.Mem y) : (i.sub j).Mem (x - y) := by
  unfold Mem sub at *
  push_cast
  constructor <;> linarith [hx.1, hx.2, hy.1, hy.2]

theorem prod_bounds {a b c d x y : ℝ} (h1 : a ≤ x) (h2 : x ≤ b) (h3 : c ≤ y) (h4 : y ≤ d) :
    min (min (a * c) (a * d)) (min (b * c) (b * d)) ≤ x * y ∧ x * y ≤ max (max (a * c) (a * d)) (max (b * c) (b * d)) := by
  have lin : ∀ {u v w k : ℝ}, u ≤ w → w ≤ v → min (u * k) (v * k) ≤ w * k ∧ w * k ≤ max (u * k) (v * k) := by
    intro u v w k hu hv
    rcases le_total 0 k with hk | hk
    · exact ⟨(min_le_left _ _).trans (mul_le_mul_of_nonneg_right hu hk), (mul_le_mul_of_nonneg_right hv hk).trans (le_max_right _ _)⟩
    · exact ⟨(min_le_right _ _).trans (mul_le_mul_of_nonpos_right hv hk), (mul_le_mul_of_nonpos_right hu hk).trans (le_max_left _ _)⟩
  obtain ⟨l1, l2⟩ := lin (k := y) h1 h2
  obtain ⟨l3, l4⟩ := lin (k := a) h3 h4
  obtain ⟨l5, l6⟩ := lin (k := b) h3 h4
  rw [mul_comm y a, mul_comm c a, mul_comm d a] at l3 l4
  rw [mul_comm y b, mul_comm c b, mul_comm d b] at l5 l6
  exact ⟨(min_le_min l3 l5).trans l1, l2.trans (max_le_max l4 l6)⟩

theorem mem_mulg {i j : Iv} {x y : ℝ} (hx : i.Mem x) (hy : j.Mem y) : (i.mulg j).Mem (x * y) := by
  obtain ⟨h1, h2⟩ := prod_bounds hx.1 hx.2 hy.1 hy.2
  unfold Mem mulg up
  simp only [min2_eq, max2_eq]
  constructor
  · have := div_le (min (min (i.a * j.a) (i.a * j.b)) (min (i.b * j.a) (i.b * j.b))) 1048576 (by norm_num)
    push_cast at this
    linarith
  · have := le_up (max (max (i.a * j.a) (i.a * j.b)) (max (i.b * j.a) (i.b * j.b))) 1048576 (by norm_num)
    push_cast at this ⊢
    linarith

theorem mem_mulq {i j : Iv} {x y : ℝ} (hx : i.Mem x) (hy : j.Mem y) (hi : 0 ≤ i.a) : (i.mulq j).Mem (x * y) := by
  have i0 : (0 : ℝ) ≤ i.a := by exact_mod_cast hi
  have x0 : 0 ≤ x * 1048576 := i0.trans hx.1
  have b0 : (0 : ℝ) ≤ i.b := x0.trans hx.2
  unfold Mem mulq up
  rw [nn_eq, nn_eq]
  simp only
  constructor
  · refine le_trans (b := x * 1048576 * j.a / 1048576) ?_ (by have := mul_le_mul_of_nonneg_left hy.1 x0; linarith)
    have hd := div_le ((if 0 ≤ j.a then i.a else i.b) * j.a) 1048576 (by norm_num)
    push_cast at hd
    split_ifs at hd ⊢ with h
    · have := mul_le_mul_of_nonneg_right hx.1 (by exact_mod_cast h : (0 : ℝ) ≤ j.a)
      linarith
    · have := mul_le_mul_of_nonpos_right hx.2 (by exact_mod_cast (not_le.mp h).le : (j.a : ℝ) ≤ 0)
      linarith
  · refine le_trans (b := x * 1048576 * j.b / 1048576) (by have := mul_le_mul_of_nonneg_left hy.2 x0; linarith) ?_
    have hd := le_up ((if 0 ≤ j.b then i.b else i.a) * j.b) 1048576 (by norm_num)
    push_cast at hd ⊢
    split_ifs at hd ⊢ with h
    · have := mul_le_mul_of_nonneg_right hx.2 (by exact_mod_cast h : (0 : ℝ) ≤ j.b)
      linarith
    · have := mul_le_mul_of_nonpos_right hx.1 (by exact_mod_cast (not_le.mp h).le : (j.b : ℝ) ≤ 0)
      linarith

theorem mem_mul {i j : Iv} {x y : ℝ} (hx : i.Mem x) (hy : j.Mem y) : (i.mul j).Mem (x * y) := by
  unfold mul
  rw [nn_eq, nn_eq]
  split_ifs with h1 h2
  · exact mem_mulq hx hy h1
  · rw [mul_comm]; exact mem_mulq hy hx h2
  · exact mem_mulg hx hy

theorem mem_mulp {i j : Iv} {x y : ℝ} (hx : i.Mem x) (hy : j.Mem y) (hi : 0 ≤ i.a) (hj : 0 ≤ j.a) : (i.mulp j).Mem (x * y) := by
  unfold Mem mulp up at *
  have i0 : (0 : ℝ) ≤ i.a := by exact_mod_cast hi
  have j0 : (0 : ℝ) ≤ j.a := by exact_mod_cast hj
  have k1 := mul_le_mul hx.1 hy.1 j0 (i0.trans hx.1)
  have k2 := mul_le_mul hx.2 hy.2 (j0.trans hy.1) ((i0.trans hx.1).trans hx.2)
  constructor
  · have := div_le (i.a * j.a) 1048576 (by norm_num)
    push_cast at this
    linarith
  · have := le_up (i.b * j.b) 1048576 (by norm_num)
    push_cast at this ⊢
    linarith

theorem mem_inv {i : Iv} {x : ℝ} (hx : i.Mem x) (hi : 0 < i.a) : (i.inv).Mem (1 / x) := by
  unfold Mem inv at *
  have i0 : (0 : ℝ) < i.a := by exact_mod_cast hi
  have x0 : 0 < x := by
    have := i0.trans_le hx.1
    linarith
  have b0 : (0 : ℝ) < i.b := by linarith [hx.1, hx.2]
  have b0' : 0 < i.b := by exact_mod_cast b0
  constructor
  · have := div_le 1099511627776 i.b b0'
    push_cast at this
    rw [div_mul_eq_mul_div, le_div_iff₀ x0]
    have h2 : ((1099511627776 / i.b : Int) : ℝ) * (x * 1048576) ≤ ((1099511627776 / i.b : Int) : ℝ) * i.b := by
      refine mul_le_mul_of_nonneg_left hx.2 ?_
      have : 0 ≤ 1099511627776 / i.b := Int.ediv_nonneg (by norm_num) b0'.le
      exact_mod_cast this
    linarith
  · have := le_up 1099511627776 i.a hi
    push_cast at this ⊢
    rw [div_mul_eq_mul_div, div_le_iff₀ x0]
    have h2 : -((-1099511627776 / i.a : Int) : ℝ) * i.a ≤ -((-1099511627776 / i.a : Int) : ℝ) * (x * 1048576) := by
      refine mul_le_mul_of_nonneg_left hx.1 ?_
      have : -1099511627776 / i.a ≤ 0 := Int.ediv_nonpos_of_nonpos_of_neg (by norm_num) hi
      have : ((-1099511627776 / i.a : Int) : ℝ) ≤ 0 := by exact_mod_cast this
      linarith
    linarith

theorem mem_frac (n d : Int) (hd : 0 < d) : (frac n d).Mem ((n : ℝ) / d) := by
  unfold Mem frac
  have d0 : (0 : ℝ) < d := by exact_mod_cast hd
  constructor
  · have := div_le (n * 1048576) d hd
    push_cast at this
    rw [div_mul_eq_mul_div, le_div_iff₀ d0]
    exact this
  · have := le_up (n * 1048576) d hd
    push_cast at this ⊢
    rw [div_mul_eq_mul_div, div_le_iff₀ d0]
    exact this

theorem mem_sq {i : Iv} {x : ℝ} (hx : i.Mem x) : (i.sq).Mem (x ^ 2) := by
  unfold sq
  rw [nn_eq, nn_eq]
  split_ifs with h1 h2
  · rw [pow_two]; exact mem_mulp hx hx h1 h1
  · have b0 : (i.b : ℝ) ≤ 0 := by exact_mod_cast (by omega : i.b ≤ 0)
    obtain ⟨k1, k2⟩ := hx
    unfold Mem up
    have e1 : (i.b : ℝ) * i.b ≤ (x * 1048576) * (x * 1048576) := mul_le_mul_of_nonpos_of_nonpos k2 k2 (by linarith) b0
    have e2 : (x * 1048576) * (x * 1048576) ≤ (i.a : ℝ) * i.a := mul_le_mul_of_nonpos_of_nonpos k1 k1 (by linarith) (by linarith)
    constructor
    · have := div_le (i.b * i.b) 1048576 (by norm_num)
      push_cast at this
      linarith
    · have := le_up (i.a * i.a) 1048576 (by norm_num)
      push_cast at this ⊢
      linarith
  · unfold Mem up
    rw [max2_eq]
    obtain ⟨k1, k2⟩ := hx
    constructor
    · push_cast; positivity
    · have h := le_up (max (i.a * i.a) (i.b * i.b)) 1048576 (by norm_num)
      push_cast at h ⊢
      have : (x * 1048576) * (x * 1048576) ≤ max ((i.a : ℝ) * i.a) (i.b * i.b) := by
        rcases le_total 0 (x * 1048576) with hp | hp
        · exact (mul_le_mul k2 k2 hp (hp.trans k2)).trans (le_max_right _ _)
        · exact (mul_le_mul_of_nonpos_of_nonpos k1 k1 (k1.trans hp) hp).trans (le_max_left _ _)
      linarith

theorem mem_meet {i j : Iv} {x : ℝ} (h1 : i.Mem x) (h2 : j.Mem x) : (i.meet j).Mem x := by
  unfold Mem meet at *
  rw [min2_eq, max2_eq]
  push_cast
  exact ⟨max_le h1.1 h2.1, le_min h1.2 h2.2⟩

end Iv

end Radvel
