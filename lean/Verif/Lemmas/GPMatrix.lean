import Verif.Lemmas.GPEval
import Verif.Props.RVLike
import Mathlib.Algebra.BigOperators.Fin

/-! Matrix facts for the theorems about GP likelihoods: diagonal covariances, permutations, Schur complement. -/

namespace Radvel
open Real Matrix ProbabilityTheory

theorem mvnDensity_diagonal {n : Nat} (d r : Fin n → ℝ) (hd : ∀ i, 0 < d i) :
    mvnDensity (Matrix.diagonal d) r = ∏ i, gaussianPDFReal 0 (d i).toNNReal (r i) := by
  unfold mvnDensity
  have hinv : (Matrix.diagonal d)⁻¹ = Matrix.diagonal (fun i => (d i)⁻¹) := by
    apply Matrix.inv_eq_right_inv
    rw [Matrix.diagonal_mul_diagonal]
    ext i j
    by_cases h : i = j
    · subst h; simp [(hd i).ne']
    · simp [h]
  rw [hinv, Matrix.det_diagonal]
  have hq : r ⬝ᵥ (Matrix.diagonal (fun i => (d i)⁻¹) *ᵥ r) = ∑ i, r i ^ 2 / d i := by
    simp only [dotProduct, Matrix.mulVec_diagonal]
    apply Finset.sum_congr rfl; intro i _
    rw [sq, div_eq_mul_inv]; ring
  rw [hq]
  have hprod : (2 * π) ^ n * ∏ i, d i = ∏ i, (2 * π * d i) := by
    rw [Finset.prod_mul_distrib]; simp
  rw [hprod, Real.sqrt_prod _ (fun i _ => by have := hd i; positivity)]
  simp only [gaussianPDFReal, sub_zero]
  rw [Finset.prod_mul_distrib, ← Real.exp_sum, Finset.prod_inv_distrib, div_eq_mul_inv, mul_comm]
  congr 1
  · congr 1
    apply Finset.prod_congr rfl; intro i _
    rw [Real.coe_toNNReal _ (hd i).le]
  · congr 1
    rw [neg_div, Finset.sum_div, ← Finset.sum_neg_distrib]
    apply Finset.sum_congr rfl; intro i _
    rw [Real.coe_toNNReal _ (hd i).le]
    have := (hd i).ne'
    field_simp

/-- A permutation of a list is a relabelling of its positions. -/
theorem perm_equiv {α : Type} {l l' : List α} (h : l.Perm l') : ∃ e : Fin l'.length ≃ Fin l.length, ∀ i : Fin l'.length, l'[i] = l[e i] := by
  induction h with
  | nil => exact ⟨Equiv.refl _, fun i => i.elim0⟩
  | @cons a l l' _ ih =>
    obtain ⟨e, he⟩ := ih
    refine ⟨⟨fun i => Fin.cases 0 (fun j => (e j).succ) i, fun i => Fin.cases 0 (fun j => (e.symm j).succ) i, ?_, ?_⟩, ?_⟩
    · intro i; refine Fin.cases rfl (fun j => ?_) i; simp
    · intro i; refine Fin.cases rfl (fun j => ?_) i; simp
    · intro i
      refine Fin.cases rfl (fun j => ?_) i
      simpa using he j
  | swap a b l =>
    refine ⟨Equiv.swap 0 1, ?_⟩
    intro i
    refine Fin.cases ?_ (fun j => ?_) i
    · show _ = (b :: a :: l).get (Equiv.swap 0 1 0)
      rw [Equiv.swap_apply_left]; rfl
    · refine Fin.cases ?_ (fun k => ?_) j
      · show _ = (b :: a :: l).get (Equiv.swap 0 1 1)
        rw [Equiv.swap_apply_right]; rfl
      · show _ = (b :: a :: l).get (Equiv.swap 0 1 (Fin.succ (Fin.succ k)))
        rw [Equiv.swap_apply_of_ne_of_ne]
        · rfl
        · exact Fin.succ_ne_zero _
        · intro h
          exact absurd (Fin.succ_inj.1 (h.trans (show (1 : Fin (l.length + 2)) = Fin.succ 0 from rfl))) (Fin.succ_ne_zero _)
  | trans _ _ ih1 ih2 =>
    obtain ⟨e1, h1⟩ := ih1
    obtain ⟨e2, h2⟩ := ih2
    exact ⟨e2.trans e1, fun i => (h2 i).trans (h1 _)⟩

theorem mvnDensity_equiv {m n : Nat} (hmn : m = n) (e : Fin m ≃ Fin n) (C : Matrix (Fin n) (Fin n) ℝ) (r : Fin n → ℝ) :
    mvnDensity (C.submatrix e e) (fun i => r (e i)) = mvnDensity C r := by
  unfold mvnDensity
  rw [Matrix.det_submatrix_equiv_self, Matrix.inv_submatrix_equiv, Matrix.submatrix_mulVec_equiv]
  have : (fun i => r (e i)) ∘ e.symm = r := by funext i; simp
  rw [this]
  have h2 : (fun i => r (e i)) ⬝ᵥ ((C⁻¹ *ᵥ r) ∘ e) = r ⬝ᵥ (C⁻¹ *ᵥ r) := by
    show (r ∘ e) ⬝ᵥ ((C⁻¹ *ᵥ r) ∘ e) = _
    rw [comp_equiv_dotProduct_comp_equiv]
  rw [h2, hmn]

theorem posDef_equiv {m n : Nat} (e : Fin m ≃ Fin n) (C : Matrix (Fin n) (Fin n) ℝ) : (C.submatrix e e).PosDef ↔ C.PosDef := by
  constructor
  · intro h
    have := h.submatrix e.symm.injective
    simpa using this
  · intro h
    exact h.submatrix e.injective

/-- The Schur complement: predictive variances are not negative. -/
theorem schur_nonneg {n : Nat} (C : Matrix (Fin n) (Fin n) ℝ) (hC : C.PosDef) (k : Fin n → ℝ) (c : ℝ)
    (h : (Matrix.fromBlocks C (Matrix.of fun i (_ : Unit) => k i) (Matrix.of fun i (_ : Unit) => k i)ᴴ (Matrix.of fun _ _ : Unit => c)).PosSemidef) :
    0 ≤ c - k ⬝ᵥ (C⁻¹ *ᵥ k) := by
  have hinv : Invertible C := C.invertibleOfIsUnitDet (isUnit_iff_ne_zero.2 hC.det_pos.ne')
  rw [Matrix.PosDef.fromBlocks₁₁ _ _ hC] at h
  have := h.diag_nonneg (i := ())
  simpa [Matrix.sub_apply, Matrix.mul_apply, dotProduct, mulVec, Finset.mul_sum, Finset.sum_mul, Matrix.mul_assoc] using this

end Radvel
