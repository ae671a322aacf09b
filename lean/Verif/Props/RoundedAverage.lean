import Verif.Model.RoundedAverage
import Verif.Spec.RoundedAverage
import Verif.Spec.Binning
import Verif.Props.RoundedFastBin

/-!
# Averages of bins in floating point (C190)
-/

namespace Radvel
open Real

/-! ## numbers that agree up to `k` roundings -/

/-- One minus a half unit in the last place. -/
noncomputable def shrink : ℝ := 1 - 1 / 2 ^ 53

theorem shrink_pos : 0 < shrink := by unfold shrink; norm_num
theorem shrink_lt : shrink < 1 := by unfold shrink; norm_num

/-- Positive numbers that differ by `k` roundings. -/
def Agree (k : Nat) (a b : ℝ) : Prop := shrink ^ k * b ≤ a ∧ shrink ^ k * a ≤ b

theorem agree_rnd {rnd : ℝ → ℝ} (h : RoundsToNearest rnd) {x : ℝ} (hx : 0 ≤ x) : Agree 1 (rnd x) x := by
  have e := abs_le.1 (h.err x)
  rw [abs_of_nonneg hx] at e
  unfold Agree shrink
  constructor
  · linarith [e.2]
  · have : rnd x ≤ (1 + 1 / 2 ^ 53) * x := by linarith [e.1]
    have h2 := mul_le_mul_of_nonneg_left this (by norm_num : (0 : ℝ) ≤ 1 - 1 / 2 ^ 53)
    have h3 : (1 - 1 / 2 ^ 53 : ℝ) * ((1 + 1 / 2 ^ 53) * x) ≤ x := by
      have : (1 - 1 / 2 ^ 53 : ℝ) * ((1 + 1 / 2 ^ 53) * x) = (1 - 1 / 2 ^ 106) * x := by norm_num; ring
      rw [this]
      nlinarith [show (0 : ℝ) ≤ 1 / 2 ^ 106 by norm_num]
    rw [pow_one]
    exact h2.trans h3

theorem Agree.trans {k l : Nat} {a b c : ℝ} (h1 : Agree k a b) (h2 : Agree l b c) : Agree (k + l) a c := by
  have p1 := pow_pos shrink_pos k
  have p2 := pow_pos shrink_pos l
  constructor
  · rw [pow_add, mul_assoc]
    exact (mul_le_mul_of_nonneg_left h2.1 p1.le).trans h1.1
  · rw [pow_add, mul_comm (shrink ^ k), mul_assoc]
    exact (mul_le_mul_of_nonneg_left h1.2 p2.le).trans h2.2

theorem Agree.nonneg {k : Nat} {a b : ℝ} (h : Agree k a b) (hb : 0 ≤ b) : 0 ≤ a := (mul_nonneg (pow_pos shrink_pos k).le hb).trans h.1

theorem Agree.pos {k : Nat} {a b : ℝ} (h : Agree k a b) (hb : 0 < b) : 0 < a := (mul_pos (pow_pos shrink_pos k) hb).trans_le h.1

theorem Agree.mono {k l : Nat} {a b : ℝ} (h : Agree k a b) (hb : 0 ≤ b) (hkl : k ≤ l) : Agree l a b := by
  have p := pow_le_pow_of_le_one shrink_pos.le shrink_lt.le hkl
  exact ⟨(mul_le_mul_of_nonneg_right p hb).trans h.1, (mul_le_mul_of_nonneg_right p (h.nonneg hb)).trans h.2⟩

theorem Agree.mul {k l : Nat} {a b c d : ℝ} (h1 : Agree k a b) (h2 : Agree l c d) (hb : 0 ≤ b) (hd : 0 ≤ d) : Agree (k + l) (a * c) (b * d) := by
  have p1 := pow_pos shrink_pos k
  have p2 := pow_pos shrink_pos l
  constructor
  · rw [pow_add, mul_mul_mul_comm]
    exact mul_le_mul h1.1 h2.1 (by positivity) (h1.nonneg hb)
  · rw [pow_add, mul_mul_mul_comm]
    exact mul_le_mul h1.2 h2.2 (mul_nonneg p2.le (h2.nonneg hd)) hb

theorem Agree.inv {k : Nat} {a b : ℝ} (h : Agree k a b) (hb : 0 < b) : Agree k (1 / a) (1 / b) := by
  have ha := h.pos hb
  constructor
  · rw [mul_one_div, div_le_div_iff₀ hb ha, one_mul]; exact h.2
  · rw [mul_one_div, div_le_div_iff₀ ha hb, one_mul]; exact h.1

theorem Agree.sqrt {k : Nat} {a b : ℝ} (h : Agree k a b) : Agree k √a √b := by
  have p := pow_pos shrink_pos k
  have p1 : shrink ^ k ≤ 1 := pow_le_one₀ shrink_pos.le shrink_lt.le
  have q : shrink ^ k ≤ √(shrink ^ k) := by
    apply Real.le_sqrt_of_sq_le
    nlinarith
  constructor
  · refine (mul_le_mul_of_nonneg_right q (Real.sqrt_nonneg _)).trans ?_
    rw [← Real.sqrt_mul p.le]
    exact Real.sqrt_le_sqrt h.1
  · refine (mul_le_mul_of_nonneg_right q (Real.sqrt_nonneg _)).trans ?_
    rw [← Real.sqrt_mul p.le]
    exact Real.sqrt_le_sqrt h.2

theorem Agree.sum {α : Type} {k : Nat} {f g : α → ℝ} (l : List α) (h : ∀ p ∈ l, Agree k (f p) (g p)) : Agree k (l.map f).sum (l.map g).sum := by
  induction l with
  | nil => simp [Agree]
  | cons a l ih =>
    have h1 := h a (by simp)
    have h2 := ih (fun p hp => h p (by simp [hp]))
    simp only [List.map_cons, List.sum_cons]
    exact ⟨by rw [mul_add]; exact add_le_add h1.1 h2.1, by rw [mul_add]; exact add_le_add h1.2 h2.2⟩

/-- A rounded sum of numbers that are not negative. -/
theorem RoundedSum.agree {rnd : ℝ → ℝ} (h : RoundsToNearest rnd) {n : Nat} {l : List ℝ} {s : ℝ} (hs : RoundedSum rnd n l s) (hl : ∀ x ∈ l, 0 ≤ x) : Agree n s l.sum := by
  induction hs with
  | nil => simp [Agree]
  | one x => simp [Agree]
  | @add n m l k a b _ _ ih1 ih2 =>
    have l0 : ∀ x ∈ l, 0 ≤ x := fun x hx => hl x (by simp [hx])
    have k0 : ∀ x ∈ k, 0 ≤ x := fun x hx => hl x (by simp [hx])
    have s1 := List.sum_nonneg l0
    have s2 := List.sum_nonneg k0
    have a1 := (ih1 l0).mono s1 (le_max_left n m)
    have a2 := (ih2 k0).mono s2 (le_max_right n m)
    rw [List.sum_append, add_comm (max n m) 1]
    exact (agree_rnd h (add_nonneg (a1.nonneg s1) (a2.nonneg s2))).trans ⟨by rw [mul_add]; exact add_le_add a1.1 a2.1, by rw [mul_add]; exact add_le_add a1.2 a2.2⟩
  | perm hp _ ih =>
    rw [← hp.sum_eq]
    exact ih (fun x hx => hl x (hp.subset hx))

/-! ## numbers of any sign -/

/-- The inverse of `shrink`: more than one plus a half unit. -/
noncomputable def stretch : ℝ := 1 / shrink

theorem stretch_ge : 1 + 1 / 2 ^ 53 ≤ stretch := by unfold stretch shrink; norm_num

theorem stretch_pow (k : Nat) : 1 ≤ stretch ^ k := one_le_pow₀ (by linarith [stretch_ge, show (0 : ℝ) < 1 / 2 ^ 53 by norm_num])

/-- Rounding a number near another one. -/
theorem near_rnd {rnd : ℝ → ℝ} (h : RoundsToNearest rnd) {k : Nat} {a b c : ℝ} (h1 : |a - b| ≤ (stretch ^ k - 1) * c) (hb : |b| ≤ c) : |rnd a - b| ≤ (stretch ^ (k + 1) - 1) * c := by
  have hc : 0 ≤ c := (abs_nonneg b).trans hb
  have e := h.err a
  have ha : |a| ≤ stretch ^ k * c := by
    have := abs_sub_abs_le_abs_sub a b
    linarith
  have t := abs_sub_le (rnd a) a b
  rw [abs_sub_comm (rnd a) a] at t
  have e2 : |a| / 2 ^ 53 ≤ stretch ^ k * c * (1 / 2 ^ 53) := by rw [div_eq_mul_one_div]; exact mul_le_mul_of_nonneg_right ha (by norm_num)
  have g : (1 + 1 / 2 ^ 53) * (stretch ^ k * c) ≤ stretch * (stretch ^ k * c) := mul_le_mul_of_nonneg_right stretch_ge (mul_nonneg (zero_le_one.trans (stretch_pow k)) hc)
  rw [pow_succ]
  nlinarith

theorem RoundedSum.near {rnd : ℝ → ℝ} (h : RoundsToNearest rnd) {n : Nat} {l : List ℝ} {s : ℝ} (hs : RoundedSum rnd n l s) : |s - l.sum| ≤ (stretch ^ n - 1) * (l.map (fun x => |x|)).sum ∧ |l.sum| ≤ (l.map (fun x => |x|)).sum := by
  induction hs with
  | nil => simp
  | one x => simp
  | @add n m l k a b _ _ ih1 ih2 =>
    have up : ∀ i j, i ≤ j → stretch ^ i ≤ stretch ^ j := fun i j hij => pow_le_pow_right₀ (by have := stretch_pow 1; rwa [pow_one] at this) hij
    have c1 : 0 ≤ (l.map (fun x => |x|)).sum := (abs_nonneg _).trans ih1.2
    have c2 : 0 ≤ (k.map (fun x => |x|)).sum := (abs_nonneg _).trans ih2.2
    have a1 := ih1.1.trans (mul_le_mul_of_nonneg_right (sub_le_sub_right (up n _ (le_max_left n m)) 1) c1)
    have a2 := ih2.1.trans (mul_le_mul_of_nonneg_right (sub_le_sub_right (up m _ (le_max_right n m)) 1) c2)
    rw [List.sum_append, List.map_append, List.sum_append]
    have b1 : |l.sum + k.sum| ≤ (l.map (fun x => |x|)).sum + (k.map (fun x => |x|)).sum := (abs_add_le _ _).trans (add_le_add ih1.2 ih2.2)
    refine ⟨near_rnd h ?_ b1, b1⟩
    have e : a + b - (l.sum + k.sum) = (a - l.sum) + (b - k.sum) := by ring
    rw [e, mul_add]
    exact (abs_add_le _ _).trans (add_le_add a1 a2)
  | perm hp _ ih =>
    rw [← hp.sum_eq, ← (hp.map _).sum_eq]
    exact ih

theorem Agree.near {k : Nat} {a b : ℝ} (h : Agree k a b) (hb : 0 ≤ b) : |a - b| ≤ (stretch ^ k - 1) * b := by
  have p := pow_pos shrink_pos k
  have e : stretch ^ k = 1 / shrink ^ k := by unfold stretch; rw [div_pow, one_pow]
  have g : a ≤ stretch ^ k * b := by
    rw [e, div_mul_eq_mul_div, one_mul, le_div_iff₀ p]
    linarith [h.2]
  have two : 2 ≤ shrink ^ k + stretch ^ k := by
    rw [e]
    set s := shrink ^ k
    have : s + 1 / s - 2 = (s - 1) ^ 2 / s := by field_simp; ring
    have h2 : 0 ≤ (s - 1) ^ 2 / s := by positivity
    linarith
  rw [abs_le]
  constructor
  · nlinarith [h.1]
  · linarith

/-- `k` roundings, for `k` that are not astronomic. -/
theorem stretch_le {k : Nat} (hk : (k : ℝ) ≤ 2 ^ 52) : stretch ^ k - 1 ≤ 2 * k / 2 ^ 53 := by
  have b := one_add_mul_le_pow (by norm_num : (-2 : ℝ) ≤ -(1 / 2 ^ 53)) k
  have e : (1 : ℝ) + -(1 / 2 ^ 53) = shrink := by unfold shrink; ring
  rw [e] at b
  have p := pow_pos shrink_pos k
  have e2 : stretch ^ k = 1 / shrink ^ k := by unfold stretch; rw [div_pow, one_pow]
  have k0 : (0 : ℝ) ≤ k := by positivity
  rw [e2, sub_le_iff_le_add, div_le_iff₀ p]
  have hx : (k : ℝ) / 2 ^ 53 ≤ 1 / 2 := by rw [div_le_iff₀ (by norm_num)]; norm_num at hk ⊢; linarith
  have hx0 : (0 : ℝ) ≤ k / 2 ^ 53 := by positivity
  have b' : 1 - (k : ℝ) / 2 ^ 53 ≤ shrink ^ k := by
    have : 1 - (k : ℝ) / 2 ^ 53 = 1 + k * -(1 / 2 ^ 53) := by ring
    rw [this]; exact b
  have e3 : 2 * (k : ℝ) / 2 ^ 53 = 2 * (k / 2 ^ 53) := by ring
  rw [e3]
  set x := (k : ℝ) / 2 ^ 53
  nlinarith

/-! ## C190 -/

theorem weight_agree {rnd : ℝ → ℝ} (h : RoundsToNearest rnd) {p : Pt} (hp : 0 < p.err) : Agree 3 (p.weightRounded rnd) (1 / p.err ^ 2) := by
  have a := agree_rnd h (one_div_pos.2 hp).le
  have b := a.mul a (one_div_pos.2 hp).le (one_div_pos.2 hp).le
  have c := (agree_rnd h (mul_nonneg (a.nonneg (one_div_pos.2 hp).le) (a.nonneg (one_div_pos.2 hp).le))).trans b
  have e : 1 / p.err * (1 / p.err) = 1 / p.err ^ 2 := by rw [div_mul_div_comm, one_mul, pow_two]
  rw [e] at c
  exact c

theorem invVar_pos_of_err {ind : List Pt} (hne : ind ≠ []) (he : ∀ p ∈ ind, 0 < p.err) : 0 < invVar ind := by
  unfold invVar
  apply List.sum_pos
  · intro x hx
    obtain ⟨p, hp, rfl⟩ := List.mem_map.1 hx
    have := he p hp
    positivity
  · simpa using hne

/-- C190: the average of a bin, with rounding and any order of additions, differs from the inverse-variance weighted mean by at most `4 n + 16` half units in the last place of the largest value. -/
theorem C190_average (rnd : ℝ → ℝ) (h : RoundsToNearest rnd) (sum : List ℝ → ℝ) (hs : SumsRounded rnd sum) (ind : List Pt) (hne : ind ≠ []) (he : ∀ p ∈ ind, 0 < p.err) (f : Pt → ℝ) (V : ℝ) (hV : ∀ p ∈ ind, |f p| ≤ V) (hn : ind.length ≤ 2 ^ 50) :
    ∃ a, weightedRounded rnd sum f ind = some a ∧ |a - wmean f ind| ≤ (4 * ind.length + 16) * V / 2 ^ 53 := by
  have hz : ¬ ∃ p ∈ ind, p.err = 0 := fun ⟨p, hp, h0⟩ => (he p hp).ne' h0
  refine ⟨_, by unfold weightedRounded; rw [if_neg hz], ?_⟩
  have W0 := invVar_pos_of_err hne he
  have V0 : 0 ≤ V := by
    obtain ⟨p, hp⟩ := List.exists_mem_of_ne_nil ind hne
    exact (abs_nonneg _).trans (hV p hp)
  have w0 : ∀ p ∈ ind, 0 < 1 / p.err ^ 2 := fun p hp => by have := he p hp; positivity
  -- the sum of the weights
  obtain ⟨n1, hn1, s1⟩ := hs (ind.map (Pt.weightRounded rnd))
  have t1 := s1.agree h (by
    intro x hx
    obtain ⟨p, hp, rfl⟩ := List.mem_map.1 hx
    exact (weight_agree h (he p hp)).nonneg (w0 p hp).le)
  have t2 : Agree 3 (ind.map (Pt.weightRounded rnd)).sum (invVar ind) := Agree.sum ind (fun p hp => weight_agree h (he p hp))
  have t3 := (t1.trans t2).mono W0.le (by rw [List.length_map] at hn1; omega : n1 + 3 ≤ ind.length + 3)
  set total := sum (ind.map (Pt.weightRounded rnd))
  -- the normalised weights
  have p1 : ∀ p ∈ ind, Agree (ind.length + 7) (rnd (p.weightRounded rnd / total)) (1 / p.err ^ 2 / invVar ind) := by
    intro p hp
    have a := (weight_agree h (he p hp)).mul (t3.inv W0) (w0 p hp).le (one_div_pos.2 W0).le
    rw [mul_one_div, mul_one_div] at a
    have b := (agree_rnd h (a.nonneg (div_pos (w0 p hp) W0).le)).trans a
    exact b.mono (div_pos (w0 p hp) W0).le (by omega)
  -- the terms
  have q1 : ∀ p ∈ ind, |rnd (rnd (p.weightRounded rnd / total) * f p) - 1 / p.err ^ 2 / invVar ind * f p| ≤ (stretch ^ (ind.length + 7 + 1) - 1) * (1 / p.err ^ 2 / invVar ind * V) ∧ |1 / p.err ^ 2 / invVar ind * f p| ≤ 1 / p.err ^ 2 / invVar ind * V := by
    intro p hp
    have pp := div_pos (w0 p hp) W0
    have b : |1 / p.err ^ 2 / invVar ind * f p| ≤ 1 / p.err ^ 2 / invVar ind * V := by
      rw [abs_mul, abs_of_pos pp]
      exact mul_le_mul_of_nonneg_left (hV p hp) pp.le
    refine ⟨near_rnd h ?_ b, b⟩
    rw [← sub_mul, abs_mul, ← mul_assoc]
    exact mul_le_mul ((p1 p hp).near pp.le) (hV p hp) (abs_nonneg _) (mul_nonneg (by linarith [stretch_pow (ind.length + 7)]) pp.le)
  -- their sum
  have e1 : (ind.map (fun p => 1 / p.err ^ 2 / invVar ind * V)).sum = V := by
    have : (ind.map (fun p => 1 / p.err ^ 2 / invVar ind * V)) = (ind.map (fun p => 1 / p.err ^ 2)).map (fun x => x * (V / invVar ind)) := by
      rw [List.map_map]
      apply List.map_congr_left
      intro p _
      simp only [Function.comp]
      ring
    rw [this, List.sum_map_mul_right, List.map_id']
    change invVar ind * (V / invVar ind) = V
    field_simp
  have e2 : (ind.map (fun p => 1 / p.err ^ 2 / invVar ind * f p)).sum = wmean f ind := by
    have : (ind.map (fun p => 1 / p.err ^ 2 / invVar ind * f p)) = (ind.map (fun p => f p / p.err ^ 2)).map (fun x => x * (1 / invVar ind)) := by
      rw [List.map_map]
      apply List.map_congr_left
      intro p _
      simp only [Function.comp]
      ring
    rw [this, List.sum_map_mul_right, List.map_id']
    unfold wmean
    ring
  obtain ⟨n2, hn2, s2⟩ := hs (ind.map (fun p => rnd (rnd (p.weightRounded rnd / total) * f p)))
  rw [List.length_map] at hn2
  have r := (s2.near h).1
  have m : ∀ l : List Pt, (∀ p ∈ l, p ∈ ind) →
      |(l.map (fun p => rnd (rnd (p.weightRounded rnd / total) * f p))).sum - (l.map (fun p => 1 / p.err ^ 2 / invVar ind * f p)).sum| ≤ (stretch ^ (ind.length + 7 + 1) - 1) * (l.map (fun p => 1 / p.err ^ 2 / invVar ind * V)).sum ∧
      ((l.map (fun p => rnd (rnd (p.weightRounded rnd / total) * f p))).map (fun x => |x|)).sum ≤ stretch ^ (ind.length + 7 + 1) * (l.map (fun p => 1 / p.err ^ 2 / invVar ind * V)).sum := by
    intro l hl
    induction l with
    | nil => simp
    | cons p l ih =>
      obtain ⟨i1, i2⟩ := ih (fun q hq => hl q (by simp [hq]))
      obtain ⟨j1, j2⟩ := q1 p (hl p (by simp))
      simp only [List.map_cons, List.sum_cons]
      constructor
      · rw [mul_add, add_sub_add_comm]
        exact (abs_add_le _ _).trans (add_le_add j1 i1)
      · rw [mul_add]
        refine add_le_add ?_ i2
        have := abs_sub_abs_le_abs_sub (rnd (rnd (p.weightRounded rnd / total) * f p)) (1 / p.err ^ 2 / invVar ind * f p)
        linarith
  obtain ⟨m1, m2⟩ := m ind (fun p hp => hp)
  rw [e1] at m1 m2
  rw [e2] at m1
  have up := pow_le_pow_right₀ (by have := stretch_pow 1; rwa [pow_one] at this : 1 ≤ stretch) hn2
  have st := stretch_pow n2
  have r2 := r.trans (mul_le_mul (sub_le_sub_right up 1) m2 (List.sum_nonneg (by
    intro x hx
    obtain ⟨y, -, rfl⟩ := List.mem_map.1 hx
    exact abs_nonneg y)) (by linarith))
  have fin : |sum (ind.map (fun p => rnd (rnd (p.weightRounded rnd / total) * f p))) - wmean f ind| ≤ (stretch ^ (2 * ind.length + 8) - 1) * V := by
    have t := abs_sub_le (sum (ind.map (fun p => rnd (rnd (p.weightRounded rnd / total) * f p)))) (ind.map (fun p => rnd (rnd (p.weightRounded rnd / total) * f p))).sum (wmean f ind)
    have e : stretch ^ (2 * ind.length + 8) = stretch ^ ind.length * stretch ^ (ind.length + 7 + 1) := by rw [← pow_add]; congr 1; omega
    rw [e]
    nlinarith
  refine fin.trans ?_
  have hk : ((2 * ind.length + 8 : ℕ) : ℝ) ≤ 2 ^ 52 := by
    have : 2 * ind.length + 8 ≤ 2 ^ 52 := by norm_num at hn ⊢; omega
    exact_mod_cast this
  refine (mul_le_mul_of_nonneg_right (stretch_le hk) V0).trans (le_of_eq ?_)
  push_cast
  ring

/-- C190: the error of a bin, with rounding, is that of C50 but for a factor of at most `n + 4` roundings. -/
theorem C190_error (rnd : ℝ → ℝ) (h : RoundsToNearest rnd) (sum : List ℝ → ℝ) (hs : SumsRounded rnd sum) (ind : List Pt) (hne : ind ≠ []) (he : ∀ p ∈ ind, 0 < p.err) (hn : ind.length ≤ 2 ^ 50) :
    |binErrorRounded rnd sum ind - 1 / √(invVar ind)| ≤ (2 * ind.length + 8) / 2 ^ 53 * (1 / √(invVar ind)) := by
  have hz : ¬ ∃ p ∈ ind, p.err = 0 := fun ⟨p, hp, h0⟩ => (he p hp).ne' h0
  have W0 := invVar_pos_of_err hne he
  unfold binErrorRounded
  rw [if_neg hz]
  have t : ∀ p ∈ ind, Agree 2 (rnd (1 / rnd (p.err * p.err))) (1 / p.err ^ 2) := by
    intro p hp
    have e0 := he p hp
    have a := agree_rnd h (mul_pos e0 e0).le
    rw [← pow_two] at a
    have b := a.inv (pow_pos e0 2)
    rw [pow_two] at b
    have c := (agree_rnd h (b.nonneg (by positivity))).trans b
    rw [← pow_two] at c
    rw [← pow_two]
    exact c
  have w0 : ∀ p ∈ ind, 0 < 1 / p.err ^ 2 := fun p hp => by have := he p hp; positivity
  obtain ⟨n1, hn1, s1⟩ := hs (ind.map (fun p => rnd (1 / rnd (p.err * p.err))))
  rw [List.length_map] at hn1
  have t1 := s1.agree h (by
    intro x hx
    obtain ⟨p, hp, rfl⟩ := List.mem_map.1 hx
    exact (t p hp).nonneg (w0 p hp).le)
  have t2 : Agree 2 (ind.map (fun p => rnd (1 / rnd (p.err * p.err)))).sum (invVar ind) := Agree.sum ind t
  have t3 := (t1.trans t2).sqrt
  have q0 := Real.sqrt_pos.2 W0
  have t4 := ((agree_rnd h (t3.nonneg q0.le)).trans t3).inv q0
  have t5 := ((agree_rnd h (t4.nonneg (one_div_pos.2 q0).le)).trans t4).mono (one_div_pos.2 q0).le (by omega : 1 + (1 + (n1 + 2)) ≤ ind.length + 4)
  refine (t5.near (one_div_pos.2 q0).le).trans (mul_le_mul_of_nonneg_right ?_ (one_div_pos.2 q0).le)
  have hk : ((ind.length + 4 : ℕ) : ℝ) ≤ 2 ^ 52 := by
    have : ind.length + 4 ≤ 2 ^ 52 := by norm_num at hn ⊢; omega
    exact_mod_cast this
  refine (stretch_le hk).trans (le_of_eq ?_)
  push_cast
  ring

/-- Adding from left to right, as numpy does for fewer than eight numbers. -/
noncomputable def seqSum (rnd : ℝ → ℝ) : List ℝ → ℝ
  | [] => 0
  | x :: l => l.foldl (fun s y => rnd (s + y)) x

theorem seqSum_sums (rnd : ℝ → ℝ) : SumsRounded rnd (seqSum rnd) := by
  intro l
  cases l with
  | nil => exact ⟨0, le_refl _, .nil⟩
  | cons x l =>
    suffices h : RoundedSum rnd l.length (x :: l) (seqSum rnd (x :: l)) from ⟨l.length, by simp, h⟩
    induction l using List.reverseRecOn with
    | nil => exact .one x
    | append_singleton l a ih =>
      have := RoundedSum.add ih (.one a)
      simp only [seqSum, List.foldl_append, List.foldl_cons, List.foldl_nil, List.length_append, List.length_singleton, Nat.max_zero] at this ⊢
      exact this

/-- C190 is false in full: three velocities of 7 with errors of 1 have an average that is less than 7. -/
theorem C190_outside_violated (rnd : ℝ → ℝ) (h : RoundsToNearest rnd) (t1 t2 t3 : ℝ) : SumsRounded rnd (seqSum rnd) ∧
    weightedRounded rnd (seqSum rnd) Pt.v [⟨t1, 7, 1⟩, ⟨t2, 7, 1⟩, ⟨t3, 7, 1⟩] = some (7 - 1 / 2 ^ 50) := by
  refine ⟨seqSum_sums rnd, ?_⟩
  have fx : ∀ (x : ℝ) (m e : ℤ), |m| ≤ 2 ^ 53 → x = m * 2 ^ e → rnd x = x := fun x m e hm hx => h.fix ⟨m, e, hm, hx⟩
  have o : rnd 1 = 1 := h.fix isBinary_one
  have w : ∀ t, Pt.weightRounded rnd ⟨t, 7, 1⟩ = 1 := by
    intro t
    unfold Pt.weightRounded
    norm_num [o]
  have tot : seqSum rnd [1, 1, 1] = 3 := by
    simp only [seqSum, List.foldl]
    rw [fx (1 + 1) 2 0 (by norm_num) (by norm_num), fx _ 3 0 (by norm_num) (by norm_num)]
    norm_num
  have p : rnd (1 / 3) = 6004799503160661 * 2 ^ (-54 : ℤ) := by
    have := h.value (1 / 3) 6004799503160661 (-54) (by norm_num) (by norm_num) (by norm_num [abs_lt])
    exact_mod_cast this
  have q : rnd (6004799503160661 * 2 ^ (-54 : ℤ) * 7) = 5254199565265578 * 2 ^ (-51 : ℤ) := by
    have := h.value (6004799503160661 * 2 ^ (-54 : ℤ) * 7) 5254199565265578 (-51) (by norm_num) (by norm_num) (by norm_num [abs_lt])
    exact_mod_cast this
  unfold weightedRounded
  rw [if_neg (by simp)]
  simp only [List.map_cons, List.map_nil, w, tot, p, q]
  simp only [seqSum, List.foldl]
  rw [fx (5254199565265578 * 2 ^ (-51 : ℤ) + 5254199565265578 * 2 ^ (-51 : ℤ)) 5254199565265578 (-50) (by norm_num) (by norm_num)]
  rw [fx _ 7881299347898367 (-50) (by norm_num) (by norm_num)]
  norm_num

/-- Without rounding these are the averages and errors of C50. -/
theorem weightedRounded_exact (f : Pt → ℝ) (ind : List Pt) : weightedRounded id List.sum f ind = weighted f ind ∧ binErrorRounded id List.sum ind = binError ind := by
  have w : Pt.weightRounded id = Pt.weight := by
    funext p
    simp only [Pt.weightRounded, Pt.weight, id, pow_two]
  unfold weightedRounded weighted binErrorRounded binError
  simp only [w, id, pow_two, and_self]

/-- The hypotheses can be met: two observations. -/
example : (∃ rnd sum, RoundsToNearest rnd ∧ SumsRounded rnd sum) ∧ (∀ p ∈ [(⟨0, 5, 1⟩ : Pt), ⟨1, -3, 2⟩], 0 < p.err ∧ |p.v| ≤ 5) ∧ wmean Pt.v [⟨0, 5, 1⟩, ⟨1, -3, 2⟩] = 17 / 5 := by
  obtain ⟨rnd, h⟩ := exists_rounding
  refine ⟨⟨rnd, seqSum rnd, h, seqSum_sums rnd⟩, ?_, ?_⟩
  · intro p hp
    simp only [List.mem_cons, List.not_mem_nil, or_false] at hp
    rcases hp with rfl | rfl <;> norm_num [abs_le]
  · norm_num [wmean, invVar]

end Radvel
