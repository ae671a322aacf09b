import Verif.Lemmas.GPWitness
import Mathlib.Algebra.Order.Chebyshev

/-!
# C35, C36, C37, C40, C85: covariance matrices of the Gaussian-process kernels
-/

namespace Radvel
open Real Matrix

/-- A kernel object for non-vacuity: length 2, amplitude 3, period 5 and so on. -/
noncomputable def exampleKernel (kind : KernelKind) (x1 x2 : List ℝ) : Kernel where
  kind := kind
  hp := [("gp_length".toList, 2), ("gp_amp".toList, 3), ("gp_per".toList, 5), ("gp_explength".toList, 7), ("gp_perlength".toList, 1)]
  x1 := x1
  x2 := x2
  cov := none

/-- Its hyperparameters. -/
noncomputable def exampleHyper (slot : String) : ℝ :=
  if slot = "gp_length" then 2 else if slot = "gp_amp" then 3 else if slot = "gp_per" then 5 else if slot = "gp_explength" then 7 else 1

theorem exampleKernel_has (kind : KernelKind) (x1 x2 : List ℝ) : (exampleKernel kind x1 x2).Has exampleHyper ∧ Regular kind exampleHyper := by
  constructor
  · intro slot hs
    rcases slot_cases (kind := kind) hs with rfl | rfl | rfl | rfl | rfl <;> rfl
  · unfold Regular exampleHyper
    cases kind <;> simp

/-! ## C35 -/

/-- C35 for hyperparameters for which the formula makes sense (missing: zero length scales and periods, where it is false, `C35_length_zero_violated`,
`C35_disabled_violated`): the matrix is square, symmetric, has amplitude² plus the squared error on the diagonal, and elsewhere entries between 0 and amplitude². -/
theorem C35_entries_partial (k : Kernel) (h : String → ℝ) (hh : k.Has h) (hr : Regular k.kind h) (xs : List ℝ) (hx : k.x1 = xs ∧ k.x2 = xs) (es : List ℝ)
    (he : es.length = xs.length) :
    ∃ K, (k.computeCov (some es)).2 = .ok K ∧ K.m = xs.length ∧ K.n = xs.length ∧
      ∀ (i j : Nat) (hi : i < xs.length) (hj : j < xs.length), ∃ v, K.e i j = some v ∧ K.e j i = some v ∧
        (i = j → v = h "gp_amp" ^ 2 + es[i] ^ 2) ∧ (i ≠ j → 0 ≤ v ∧ v ≤ h "gp_amp" ^ 2) := by
  rw [computeCov_regular hh hr, hx.1, hx.2]
  unfold Kernel.store addErrors Mat.table Mat.addDiag
  simp only
  refine ⟨_, rfl, ?_, ?_, ?_⟩
  · simp [he]
  · simp [he]
  · intro i j hi hj
    simp only [he, and_self, if_true]
    by_cases hij : i = j
    · subst hij
      refine ⟨h "gp_amp" ^ 2 + es[i] ^ 2, ?_, ?_, fun _ => rfl, fun h => absurd rfl h⟩ <;>
      · simp only [if_true, Option.map_some, gpCov_self]
        rw [List.getD_eq_getElem _ _ (by simp; omega)]; simp
    · refine ⟨gpCov k.kind h xs[i] xs[j], ?_, ?_, fun h => absurd h hij, fun _ => ⟨gpCov_nonneg _ _ _ _, gpCov_le _ _ _ _⟩⟩
      · rw [if_neg hij, List.getD_eq_getElem _ _ hi, List.getD_eq_getElem _ _ hj]
      · rw [if_neg (Ne.symm hij), List.getD_eq_getElem _ _ hi, List.getD_eq_getElem _ _ hj, gpCov_symm]

/-- Non-vacuity of C35: three times and errors. -/
example (kind : KernelKind) : ((exampleKernel kind [0, 1, 5] [0, 1, 5]).Has exampleHyper ∧ Regular kind exampleHyper) ∧ [1, 1, 2].length = [(0 : ℝ), 1, 5].length :=
  ⟨exampleKernel_has _ _ _, rfl⟩

/-- C35, between different sets of times and without errors (what `predict` uses): entries between 0 and amplitude², the entry of a time with itself being amplitude². -/
theorem C35_cross (k : Kernel) (h : String → ℝ) (hh : k.Has h) (hr : Regular k.kind h) :
    ∃ K, (k.computeCov none).2 = .ok K ∧ K.m = k.x1.length ∧ K.n = k.x2.length ∧
      ∀ (i j : Nat) (hi : i < k.x1.length) (hj : j < k.x2.length), ∃ v, K.e i j = some v ∧ 0 ≤ v ∧ v ≤ h "gp_amp" ^ 2 ∧ (k.x1[i] = k.x2[j] → v = h "gp_amp" ^ 2) := by
  rw [computeCov_regular hh hr]
  refine ⟨_, rfl, rfl, rfl, ?_⟩
  intro i j hi hj
  refine ⟨gpCov k.kind h k.x1[i] k.x2[j], ?_, gpCov_nonneg _ _ _ _, gpCov_le _ _ _ _, ?_⟩
  · exact table_entry (fun a b => some (gpCov k.kind h a b)) k.x1 k.x2 ⟨i, hi⟩ ⟨j, hj⟩
  · intro e; rw [e, gpCov_self]

/-- Non-vacuity of `C35_cross`: different numbers of times. -/
example (kind : KernelKind) : (exampleKernel kind [0, 1, 5] [0, 1]).Has exampleHyper ∧ Regular kind exampleHyper := exampleKernel_has _ _ _

/-- C35 in full is false: with `gp_length = 0` the squared-exponential and periodic kernels have nan on the diagonal, whatever the times, the amplitude and the errors
(the limit of the formula would be amplitude²). -/
theorem C35_length_zero_violated (kind : KernelKind) (hk : kind = .sqExp ∨ kind = .per) (hp : Dict (List Char) ℝ) (h0 : hp.get? "gp_length".toList = some 0)
    (xs es : List ℝ) (cov : Option Mat) (he : es.length = xs.length) (i : Nat) :
    ∃ K, ((Kernel.mk kind hp xs xs cov).computeCov (some es)).2 = .ok K ∧ K.e i i = none := by
  have hl : (Kernel.mk kind hp xs xs cov).par "gp_length" = 0 := by unfold Kernel.par; rw [show (Kernel.mk kind hp xs xs cov).hp = hp from rfl, h0]; rfl
  rcases hk with rfl | rfl
  · refine ⟨_, rfl, ?_⟩
    rw [hl]
    unfold addErrors Mat.table Mat.addDiag sqExpEntry distSq
    simp [he]
  · refine ⟨_, rfl, ?_⟩
    rw [hl]
    unfold addErrors Mat.table Mat.addDiag perEntry distAbs
    simp [he]

/-- Non-vacuity of `C35_length_zero_violated`. -/
example : Dict.get? ([("gp_length".toList, 0), ("gp_amp".toList, 1)] : Dict (List Char) ℝ) "gp_length".toList = some 0 ∧ [1, 1].length = [(0 : ℝ), 1].length := ⟨rfl, rfl⟩

/-- C35 in full is false: with `gp_per = 0` (or another zero) and amplitude 3 the quasi-periodic kernel has the squared error alone on the diagonal. -/
theorem C35_disabled_violated : ∃ (k : Kernel) (K : Mat), k.kind = .quasiPer ∧ k.par "gp_amp" = 3 ∧ k.par "gp_per" = 0 ∧ k.x1 = [0, 1] ∧ k.x2 = [0, 1] ∧
    (k.computeCov (some [1, 1])).2 = .ok K ∧ K.e 0 0 = some 1 := by
  refine ⟨⟨.quasiPer, [("gp_perlength".toList, 1), ("gp_amp".toList, 3), ("gp_per".toList, 0), ("gp_explength".toList, 1)], [0, 1], [0, 1], none⟩,
    Mat.addDiag { m := 2, n := 2, e := fun _ _ => some 0 } [1 ^ 2, 1 ^ 2], rfl, rfl, rfl, rfl, rfl, ?_, ?_⟩
  · have h1 : (Kernel.mk .quasiPer [("gp_perlength".toList, 1), ("gp_amp".toList, 3), ("gp_per".toList, 0), ("gp_explength".toList, 1)] [0, 1] [0, 1] none).par "gp_amp" = 3 := rfl
    have h2 : (Kernel.mk .quasiPer [("gp_perlength".toList, 1), ("gp_amp".toList, 3), ("gp_per".toList, 0), ("gp_explength".toList, 1)] [0, 1] [0, 1] none).par "gp_per" = 0 := rfl
    have h3 : (Kernel.mk .quasiPer [("gp_perlength".toList, 1), ("gp_amp".toList, 3), ("gp_per".toList, 0), ("gp_explength".toList, 1)] [0, 1] [0, 1] none).par "gp_perlength" = 1 := rfl
    have h4 : (Kernel.mk .quasiPer [("gp_perlength".toList, 1), ("gp_amp".toList, 3), ("gp_per".toList, 0), ("gp_explength".toList, 1)] [0, 1] [0, 1] none).par "gp_explength" = 1 := rfl
    unfold Kernel.computeCov
    simp only
    rw [h1, h2, h3, h4, if_neg (by norm_num), if_pos (by norm_num)]
    unfold Kernel.disabled
    simp
  · simp [Mat.addDiag]

/-! ## C36 -/

/-- The exponents of the quasi-periodic kernel stay below 100 in absolute value for all pairs of these times. -/
def Unclipped (h : String → ℝ) (xs : List ℝ) : Prop :=
  ∀ a ∈ xs, ∀ b ∈ xs, |a - b| ^ 2 / h "gp_explength" ^ 2 ≤ 100 ∧ sin (π * |a - b| / h "gp_per") ^ 2 / (2 * h "gp_perlength" ^ 2) ≤ 100

theorem Unclipped.eq {h : String → ℝ} {xs : List ℝ} (hu : Unclipped h xs) {a b : ℝ} (ha : a ∈ xs) (hb : b ∈ xs) : gpCov .quasiPer h a b = quasiCov h a b := by
  unfold gpCov quasiCov
  obtain ⟨h1, h2⟩ := hu a ha b hb
  simp only
  rw [min_eq_right h1, min_eq_right h2]

/-- The covariance function is positive semidefinite on these times. -/
theorem gpCov_psd (kind : KernelKind) (h : String → ℝ) (xs : List ℝ) (hu : kind = .quasiPer → Unclipped h xs) {ι : Type} (f : ι → ℝ) (hf : ∀ i, f i ∈ xs) :
    PSDKernel (fun i j => gpCov kind h (f i) (f j)) := by
  cases kind with
  | sqExp => exact (gpCov_sqExp_psd h).submatrix f
  | per => exact (gpCov_per_psd h).submatrix f
  | quasiPer =>
    have := (quasiCov_psd h).submatrix f
    convert this using 3
    exact (hu rfl).eq (hf _) (hf _)

theorem posDef_of_psd {n : Nat} {k : Fin n → Fin n → ℝ} (hk : PSDKernel k) (d : Fin n → ℝ) (hd : ∀ i, 0 < d i) :
    (Matrix.of fun i j => k i j + if i = j then d i else 0).PosDef := by
  have h1 : (Matrix.diagonal d).PosDef := PosDef.diagonal hd
  have h2 := h1.posSemidef_add hk
  convert h2 using 1
  ext i j
  simp [Matrix.diagonal_apply]

/-- The entries of what `compute_covmatrix` returns, for regular hyperparameters. -/
theorem computeCov_entries (k : Kernel) (h : String → ℝ) (hh : k.Has h) (hr : Regular k.kind h) (xs : List ℝ) (hx : k.x1 = xs ∧ k.x2 = xs) (es : List ℝ)
    (he : es.length = xs.length) :
    ∃ K, (k.computeCov (some es)).2 = .ok K ∧ K.m = xs.length ∧ K.n = xs.length ∧
      ∀ i j : Fin xs.length, K.e i j = some (gpCov k.kind h xs[i] xs[j] + if i = j then es[i] ^ 2 else 0) := by
  rw [computeCov_regular hh hr, hx.1, hx.2]
  unfold Kernel.store addErrors Mat.table Mat.addDiag
  simp only
  refine ⟨_, rfl, ?_, ?_, ?_⟩
  · simp [he]
  · simp [he]
  · intro i j
    simp only [he, and_self, if_true]
    rw [List.getD_eq_getElem _ _ i.2, List.getD_eq_getElem _ _ j.2]
    by_cases hij : i = j
    · subst hij
      simp only [if_true, Option.map_some]
      rw [List.getD_eq_getElem _ _ (by simp; omega)]; simp
    · have : (i : Nat) ≠ j := fun e => hij (Fin.ext e)
      rw [if_neg this, if_neg hij, add_zero]; rfl

/-- C36: with non-zero errors the covariance matrix of every kernel is positive definite, for all times, coinciding or not; for the quasi-periodic kernel if no exponent
reaches the cut-off. -/
theorem C36_posDef (k : Kernel) (h : String → ℝ) (hh : k.Has h) (hr : Regular k.kind h) (xs : List ℝ) (hx : k.x1 = xs ∧ k.x2 = xs) (es : List ℝ)
    (he : es.length = xs.length) (h0 : ∀ e ∈ es, e ≠ 0) (hu : k.kind = .quasiPer → Unclipped h xs) :
    ∃ K, (k.computeCov (some es)).2 = .ok K ∧ K.m = xs.length ∧ K.n = xs.length ∧ (Matrix.of fun i j : Fin xs.length => (K.e i j).getD 0).PosDef ∧
      ∀ i j : Fin xs.length, K.e i j ≠ none := by
  obtain ⟨K, h1, h2, h3, h4⟩ := computeCov_entries k h hh hr xs hx es he
  refine ⟨K, h1, h2, h3, ?_, fun i j => by rw [h4]; simp⟩
  have := posDef_of_psd (gpCov_psd k.kind h xs hu (fun i : Fin xs.length => xs[i]) (fun i => List.getElem_mem _)) (fun i => es[i] ^ 2)
    (fun i => by have := h0 _ (List.getElem_mem (n := i) (by omega : (i : Nat) < es.length)); positivity)
  convert this using 1
  ext i j
  simp only [Matrix.of_apply]
  rw [h4]; rfl

/-- Non-vacuity of C36: a quasi-periodic kernel with two coinciding times. -/
example : (exampleKernel .quasiPer [0, 1, 1] [0, 1, 1]).Has exampleHyper ∧ Regular .quasiPer exampleHyper ∧ (∀ e ∈ [(1 : ℝ), 1, 2], e ≠ 0) ∧ Unclipped exampleHyper [0, 1, 1] := by
  refine ⟨(exampleKernel_has _ _ _).1, (exampleKernel_has _ [] []).2 , by simp, ?_⟩
  intro a ha b hb
  have h7 : exampleHyper "gp_explength" = 7 := by simp [exampleHyper]
  have h1 : exampleHyper "gp_perlength" = 1 := by simp [exampleHyper]
  rw [h7, h1]
  constructor
  · simp only [List.mem_cons, List.not_mem_nil, or_false, or_self] at ha hb
    rcases ha with rfl | rfl <;> rcases hb with rfl | rfl <;> norm_num
  · have := sin_sq_le_one (π * |a - b| / exampleHyper "gp_per")
    linarith

theorem clipped_diff (h : String → ℝ) (a b : ℝ) : 0 ≤ gpCov .quasiPer h a b - quasiCov h a b ∧ gpCov .quasiPer h a b - quasiCov h a b ≤ h "gp_amp" ^ 2 * exp (-100) := by
  unfold gpCov quasiCov
  simp only
  set A := |a - b| ^ 2 / h "gp_explength" ^ 2 with hA
  set B := sin (π * |a - b| / h "gp_per") ^ 2 / (2 * h "gp_perlength" ^ 2) with hB
  have hA0 : 0 ≤ A := by positivity
  have hB0 : 0 ≤ B := by positivity
  rw [← mul_sub]
  have hamp : 0 ≤ h "gp_amp" ^ 2 := by positivity
  constructor
  · apply mul_nonneg hamp
    rw [sub_nonneg, exp_le_exp]
    have := min_le_right 100 A
    have := min_le_right 100 B
    linarith
  · apply mul_le_mul_of_nonneg_left _ hamp
    rcases le_total 100 A with h1 | h1
    · rw [min_eq_left h1]
      have h2 : 0 ≤ min 100 B := by positivity
      have h3 : exp (-100 - min 100 B) ≤ exp (-100) := exp_le_exp.2 (by linarith)
      have := exp_pos (-A - B)
      linarith
    · rcases le_total 100 B with h2 | h2
      · rw [min_eq_left h2]
        have h3 : 0 ≤ min 100 A := by positivity
        have h4 : exp (-min 100 A - 100) ≤ exp (-100) := exp_le_exp.2 (by linarith)
        have := exp_pos (-A - B)
        linarith
      · rw [min_eq_right h1, min_eq_right h2, sub_self]
        exact (exp_pos _).le

theorem quadForm_bound {n : Nat} (E : Fin n → Fin n → ℝ) (c : ℝ) (hE : ∀ i j, |E i j| ≤ c) (x : Fin n → ℝ) :
    -(n * c * ∑ i, x i ^ 2) ≤ ∑ i, ∑ j, x i * E i j * x j := by
  rcases Nat.eq_zero_or_pos n with rfl | hn
  · simp
  have hc : 0 ≤ c := le_trans (abs_nonneg _) (hE ⟨0, hn⟩ ⟨0, hn⟩)
  have h1 : -∑ i, ∑ j, c * (|x i| * |x j|) ≤ ∑ i, ∑ j, x i * E i j * x j := by
    rw [← Finset.sum_neg_distrib]
    apply Finset.sum_le_sum; intro i _
    rw [← Finset.sum_neg_distrib]
    apply Finset.sum_le_sum; intro j _
    have : |x i * E i j * x j| ≤ c * (|x i| * |x j|) := by
      rw [abs_mul, abs_mul]
      have := hE i j
      nlinarith [mul_nonneg (abs_nonneg (x i)) (abs_nonneg (x j)), mul_le_mul_of_nonneg_left this (mul_nonneg (abs_nonneg (x i)) (abs_nonneg (x j)))]
    linarith [neg_abs_le (x i * E i j * x j)]
  have h2 : ∑ i, ∑ j, c * (|x i| * |x j|) = c * (∑ i, |x i|) ^ 2 := by
    rw [sq, Finset.sum_mul_sum, Finset.mul_sum]
    apply Finset.sum_congr rfl; intro i _
    rw [Finset.mul_sum]
  have h3 : (∑ i, |x i|) ^ 2 ≤ n * ∑ i, x i ^ 2 := by
    have := sq_sum_le_card_mul_sum_sq (s := (Finset.univ : Finset (Fin n))) (f := fun i => |x i|)
    simpa using this
  have h4 := mul_le_mul_of_nonneg_left h3 hc
  rw [h2] at h1
  linarith

/-- C36 for the quasi-periodic kernel as implemented, cut-off included: the matrix is positive definite as soon as every squared error exceeds `n·amp²·e⁻¹⁰⁰` (missing: no
smaller errors; the cut-off destroys positive semidefiniteness of the kernel itself). -/
theorem C36_quasi_clipped_partial (k : Kernel) (h : String → ℝ) (hh : k.Has h) (hk : k.kind = .quasiPer) (hr : Regular k.kind h) (xs : List ℝ) (hx : k.x1 = xs ∧ k.x2 = xs)
    (es : List ℝ) (he : es.length = xs.length) (h0 : ∀ e ∈ es, xs.length * (h "gp_amp" ^ 2 * exp (-100)) < e ^ 2) :
    ∃ K, (k.computeCov (some es)).2 = .ok K ∧ K.m = xs.length ∧ K.n = xs.length ∧ (Matrix.of fun i j : Fin xs.length => (K.e i j).getD 0).PosDef := by
  obtain ⟨K, h1, h2, h3, h4⟩ := computeCov_entries k h hh hr xs hx es he
  refine ⟨K, h1, h2, h3, ?_⟩
  rw [hk] at h4
  have hmat : (Matrix.of fun i j : Fin xs.length => (K.e i j).getD 0) = Matrix.of fun i j : Fin xs.length => gpCov .quasiPer h xs[i] xs[j] + if i = j then es[i] ^ 2 else 0 := by
    ext i j
    simp only [Matrix.of_apply]
    rw [h4]; rfl
  rw [hmat]
  apply PosDef.of_dotProduct_mulVec_pos
  · ext i j
    simp only [Matrix.conjTranspose_apply, Matrix.of_apply, star_trivial]
    rw [gpCov_symm]
    by_cases hij : i = j
    · subst hij; rfl
    · rw [if_neg hij, if_neg (Ne.symm hij)]
  · intro x hx0
    have hq := ((quasiCov_psd h).submatrix (fun i : Fin xs.length => xs[i]))
    have hq2 := (posSemidef_iff_dotProduct_mulVec.1 hq).2 x
    have hE := quadForm_bound (fun i j : Fin xs.length => gpCov .quasiPer h xs[i] xs[j] - quasiCov h xs[i] xs[j]) (h "gp_amp" ^ 2 * exp (-100))
      (fun i j => by rw [abs_of_nonneg (clipped_diff _ _ _).1]; exact (clipped_diff _ _ _).2) x
    have hsplit : star x ⬝ᵥ ((Matrix.of fun i j : Fin xs.length => gpCov .quasiPer h xs[i] xs[j] + if i = j then es[i] ^ 2 else 0) *ᵥ x)
        = star x ⬝ᵥ ((Matrix.of fun i j : Fin xs.length => quasiCov h xs[i] xs[j]) *ᵥ x) +
          (∑ i, ∑ j, x i * (gpCov .quasiPer h xs[i] xs[j] - quasiCov h xs[i] xs[j]) * x j) + ∑ i : Fin xs.length, es[i] ^ 2 * x i ^ 2 := by
      simp only [dotProduct, mulVec, Matrix.of_apply, Pi.star_apply, star_trivial, Finset.mul_sum]
      rw [← Finset.sum_add_distrib, ← Finset.sum_add_distrib]
      apply Finset.sum_congr rfl; intro i _
      rw [← Finset.sum_add_distrib]
      have : es[i] ^ 2 * x i ^ 2 = ∑ j, x i * ((if i = j then es[i] ^ 2 else 0) * x j) := by
        simp only [ite_mul, zero_mul, mul_ite, mul_zero, Finset.sum_ite_eq, Finset.mem_univ, if_true]; ring
      rw [this, ← Finset.sum_add_distrib]
      apply Finset.sum_congr rfl; intro j _
      ring
    rw [hsplit]
    obtain ⟨i0, hi0⟩ : ∃ i, x i ≠ 0 := by
      by_contra hcon
      push Not at hcon
      exact hx0 (funext hcon)
    have hlast : xs.length * (h "gp_amp" ^ 2 * exp (-100)) * ∑ i, x i ^ 2 < ∑ i : Fin xs.length, es[i] ^ 2 * x i ^ 2 := by
      rw [Finset.mul_sum]
      apply Finset.sum_lt_sum
      · intro i _
        have := h0 _ (List.getElem_mem (n := i) (by omega : (i : Nat) < es.length))
        exact mul_le_mul_of_nonneg_right this.le (by positivity)
      · exact ⟨i0, Finset.mem_univ _, mul_lt_mul_of_pos_right (h0 _ (List.getElem_mem (n := i0) (by omega : (i0 : Nat) < es.length))) (by positivity)⟩
    linarith

/-- Non-vacuity of `C36_quasi_clipped_partial`: times so far apart that the cut-off acts. -/
example : (exampleKernel .quasiPer [0, 1000] [0, 1000]).Has exampleHyper ∧ Regular .quasiPer exampleHyper ∧ ¬ Unclipped exampleHyper [0, 1000] ∧
    ∀ e ∈ [(5 : ℝ), 5], [(0 : ℝ), 1000].length * (exampleHyper "gp_amp" ^ 2 * exp (-100)) < e ^ 2 := by
  refine ⟨(exampleKernel_has _ _ _).1, (exampleKernel_has _ [] []).2, ?_, ?_⟩
  · intro hu
    have := (hu 0 (by simp) 1000 (by simp)).1
    have h7 : exampleHyper "gp_explength" = 7 := by simp [exampleHyper]
    rw [h7] at this
    norm_num at this
  · intro e he
    have h3 : exampleHyper "gp_amp" = 3 := by simp [exampleHyper]
    rw [h3]
    have : exp (-100 : ℝ) ≤ 1 := exp_le_one_iff.2 (by norm_num)
    simp only [List.mem_cons, List.not_mem_nil, or_false, or_self] at he
    subst he
    norm_num
    linarith

/-! ## C37 -/

/-- C37 except for a quasi-periodic kernel with a zero hyperparameter (missing; there it is false, `C37_disabled_violated`): whatever was stored before, the matrix returned
is the one stored, and it has the shape of the distance matrix. -/
theorem C37_stored_partial (k k' : Kernel) (es : Option (List ℝ)) (K : Mat) (h : k.computeCov es = (k', .ok K))
    (hz : k.kind = .quasiPer → k.par "gp_amp" ≠ 0 ∧ k.par "gp_per" ≠ 0 ∧ k.par "gp_explength" ≠ 0 ∧ k.par "gp_perlength" ≠ 0) :
    k'.cov = some K ∧ K.m = k.x1.length ∧ K.n = k.x2.length := by
  have key : ∀ f : ℝ → ℝ → Option ℝ, k.store (Mat.table f k.x1 k.x2) es = (k', .ok K) → k'.cov = some K ∧ K.m = k.x1.length ∧ K.n = k.x2.length := by
    intro f hf
    unfold Kernel.store at hf
    simp only [Prod.mk.injEq, Except.ok.injEq] at hf
    obtain ⟨rfl, rfl⟩ := hf
    refine ⟨rfl, ?_, ?_⟩
    · unfold addErrors
      split
      · rfl
      · split <;> rfl
    · unfold addErrors
      split
      · rfl
      · split <;> rfl
  unfold Kernel.computeCov at h
  cases hk : k.kind with
  | sqExp => rw [hk] at h; exact key _ h
  | per => rw [hk] at h; exact key _ h
  | quasiPer =>
    rw [hk] at h
    obtain ⟨h1, h2, h3, h4⟩ := hz hk
    simp only at h
    split at h
    · cases h
    · rw [if_neg (by push Not; exact ⟨h1, h2, h3, h4⟩)] at h
      exact key _ h

/-- Non-vacuity of C37: the hypotheses hold of the kernel of the examples. -/
example : ∃ k' K, (exampleKernel .quasiPer [0, 1] [0, 1, 2]).computeCov none = (k', .ok K) ∧
    (exampleKernel .quasiPer [0, 1] [0, 1, 2]).par "gp_amp" ≠ 0 ∧ (exampleKernel .quasiPer [0, 1] [0, 1, 2]).par "gp_per" ≠ 0 ∧
    (exampleKernel .quasiPer [0, 1] [0, 1, 2]).par "gp_explength" ≠ 0 ∧ (exampleKernel .quasiPer [0, 1] [0, 1, 2]).par "gp_perlength" ≠ 0 := by
  have h := exampleKernel_has .quasiPer [0, 1] [0, 1, 2]
  refine ⟨_, _, computeCov_regular h.1 h.2 none, ?_⟩
  rw [h.1.par (slot := "gp_amp") (show "gp_amp".toList ∈ KernelKind.quasiPer.slots by decide), h.1.par (slot := "gp_per") (show "gp_per".toList ∈ KernelKind.quasiPer.slots by decide),
    h.1.par (slot := "gp_explength") (show "gp_explength".toList ∈ KernelKind.quasiPer.slots by decide), h.1.par (slot := "gp_perlength") (show "gp_perlength".toList ∈ KernelKind.quasiPer.slots by decide)]
  simp [exampleHyper]

/-- C37 in full is false: a quasi-periodic kernel with amplitude zero stores nothing — an earlier matrix stays — and what it returns is square even where the distance
matrix is not. This holds for every such kernel. -/
theorem C37_disabled_violated (k : Kernel) (hk : k.kind = .quasiPer) (h0 : k.par "gp_amp" = 0) (h1 : 0 ≤ k.par "gp_per") (h2 : 0 ≤ k.par "gp_explength")
    (h3 : 0 ≤ k.par "gp_perlength") : ∃ K, k.computeCov none = (k, .ok K) ∧ K.m = k.x1.length ∧ K.n = k.x1.length := by
  refine ⟨{ m := k.x1.length, n := k.x1.length, e := fun _ _ => some 0 }, ?_, rfl, rfl⟩
  unfold Kernel.computeCov
  rw [hk]
  simp only
  rw [if_neg (by push Not; exact ⟨h0.ge, h1, h2, h3⟩), if_pos (.inl h0)]
  rfl

/-- Non-vacuity of `C37_disabled_violated`: different numbers of rows and columns, and a stored matrix. -/
example : ∃ k : Kernel, k.kind = .quasiPer ∧ k.par "gp_amp" = 0 ∧ 0 ≤ k.par "gp_per" ∧ 0 ≤ k.par "gp_explength" ∧ 0 ≤ k.par "gp_perlength" ∧ k.x1.length ≠ k.x2.length ∧
    k.cov ≠ none :=
  ⟨⟨.quasiPer, [("gp_perlength".toList, 0), ("gp_amp".toList, 0), ("gp_per".toList, 0), ("gp_explength".toList, 0)], [0, 1], [0], some ⟨0, 0, fun _ _ => none⟩⟩, rfl, rfl,
    le_of_eq rfl, le_of_eq rfl, le_of_eq rfl, by simp, by simp⟩

/-! ## C40 -/

/-- C40: the coefficients handed to celerite represent the documented kernel. -/
theorem C40_term (B C L P d : ℝ) (hC : 2 + C ≠ 0) :
    (celeriteCoeffs B C L P).term d = B / (2 + C) * exp (-d / L) * (cos (2 * π * d / P) + 1 + C) := by
  unfold celeriteCoeffs CeleriteCoeffs.term
  simp only
  rw [show -(1 / L) * d = -d / L by ring, show 2 * π / P * d = 2 * π * d / P by ring]
  field_simp
  ring

/-- C40: at lag zero it is `B`. -/
theorem C40_zero (B C L P : ℝ) (hC : 2 + C ≠ 0) : (celeriteCoeffs B C L P).term 0 = B := by
  rw [C40_term B C L P 0 hC]
  simp
  field_simp
  ring

/-- C40: `B` bounds the covariance at every lag, for `B ≥ 0`, `C ≥ -1` and `L > 0` (for smaller `C` it can fail,
`C40_negative_C_violated`). -/
theorem C40_bound (B C L P d : ℝ) (hB : 0 ≤ B) (hC : -1 ≤ C) (hL : 0 < L) (hd : 0 ≤ d) : |(celeriteCoeffs B C L P).term d| ≤ B := by
  have h2 : 0 < 2 + C := by linarith
  rw [C40_term B C L P d h2.ne']
  have he : exp (-d / L) ≤ 1 := exp_le_one_iff.2 (by rw [neg_div]; exact neg_nonpos.2 (by positivity))
  have he0 := exp_pos (-d / L)
  have hc1 := cos_le_one (2 * π * d / P)
  have hc2 := neg_one_le_cos (2 * π * d / P)
  have habs : |cos (2 * π * d / P) + 1 + C| ≤ 2 + C := by rw [abs_le]; constructor <;> linarith
  rw [abs_mul, abs_mul, abs_of_pos he0, abs_of_nonneg (by positivity : 0 ≤ B / (2 + C))]
  calc B / (2 + C) * exp (-d / L) * |cos (2 * π * d / P) + 1 + C| ≤ B / (2 + C) * 1 * (2 + C) := by gcongr
    _ = B := by field_simp

/-- C40 without `C ≥ -1` is false: with `B = 1`, `C = -3/2` the covariance at lag 1 exceeds `B` in absolute value (`L = 2`, `P = 2`). -/
theorem C40_negative_C_violated : 1 < |(celeriteCoeffs 1 (-3 / 2) 2 2).term 1| := by
  rw [C40_term _ _ _ _ _ (by norm_num), show 2 * π * 1 / 2 = π by ring, cos_pi]
  have h1 : (-1 / 2 : ℝ) + 1 < exp (-1 / 2) := add_one_lt_exp (by norm_num)
  rw [abs_mul, abs_mul, abs_of_pos (exp_pos _)]
  norm_num at h1 ⊢
  linarith

/-- Non-vacuity of C40. -/
example : (2 : ℝ) + 0 ≠ 0 ∧ (0 : ℝ) ≤ 3 ∧ (-1 : ℝ) ≤ 0 ∧ (0 : ℝ) < 20 := by norm_num

/-! ## C85 -/

/-- C85 if the times are in increasing order (missing: otherwise; there it is false): the solver receives every time with its own velocity and uncertainty. -/
theorem C85_sorted_partial (obs : List Obs) (hs : obs.Pairwise (fun a b => a.t ≤ b.t)) : (CelLike.new obs).solverInput = obs.map (fun o => (o.t, o)) := by
  unfold CelLike.solverInput CelLike.new
  simp only
  have : obs.mergeSort (fun a b => decide (a.t ≤ b.t)) = obs := List.mergeSort_of_pairwise (by simpa using hs)
  rw [this]
  induction obs with
  | nil => rfl
  | cons o t ih =>
    simp only [List.map_cons, List.zip_cons_cons]
    rw [ih (List.pairwise_cons.1 hs).2 (List.mergeSort_of_pairwise (by simpa using (List.pairwise_cons.1 hs).2))]

/-- Non-vacuity of `C85_sorted_partial`. -/
example : [({ t := 0, y := 3, err := 1 } : Obs), { t := 1, y := 4, err := 2 }].Pairwise (fun a b => a.t ≤ b.t) := by simp

/-- C85 in full is false: with two observations in decreasing order of time the solver receives each time with the velocity and the uncertainty of the other one. -/
theorem C85_unsorted_violated (t0 t1 y0 y1 e0 e1 : ℝ) (h : t1 < t0) :
    (CelLike.new [{ t := t0, y := y0, err := e0 }, { t := t1, y := y1, err := e1 }]).solverInput =
      [(t0, { t := t1, y := y1, err := e1 }), (t1, { t := t0, y := y0, err := e0 })] := by
  unfold CelLike.solverInput CelLike.new
  have : ([{ t := t0, y := y0, err := e0 }, { t := t1, y := y1, err := e1 }] : List Obs).mergeSort (fun a b => decide (a.t ≤ b.t)) =
      [{ t := t1, y := y1, err := e1 }, { t := t0, y := y0, err := e0 }] := by
    simp [List.mergeSort, List.MergeSort.Internal.splitInTwo, List.merge, not_le.2 h]
  rw [this]
  rfl

end Radvel
