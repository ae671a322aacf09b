import Verif.Spec.Celerite
import Verif.Lemmas.KernelPSD
import Verif.Lemmas.GPCov
import Verif.Lemmas.GPMatrix
import Verif.Props.GPKernel
import Mathlib.MeasureTheory.Function.L2Space
import Mathlib.MeasureTheory.Measure.Lebesgue.Basic

/-! The Ornstein-Uhlenbeck kernel, and the celerite kernel built on it, are positive semidefinite. -/

namespace Radvel
open Real Matrix MeasureTheory

/-- The kernel `min (f t) (f u)` of a function without negative values. -/
theorem PSDKernel.min {ι : Type} [Finite ι] (f : ι → ℝ) (hf : ∀ i, 0 ≤ f i) : PSDKernel (fun i j => Min.min (f i) (f j)) := by
  have h : (Matrix.of fun i j : ι => Min.min (f i) (f j)) = .of fun i j => (volume : Measure ℝ).real ((Set.Icc 0 (f i)) ∩ (Set.Icc 0 (f j))) := by
    ext i j
    have : 0 ≤ Min.min (f i) (f j) := le_min (hf i) (hf j)
    simp [Set.Icc_inter_Icc, this]
  unfold PSDKernel
  rw [h]
  exact posSemidef_matrix_measure_inter (fun _ => measurableSet_Icc) (fun _ => isCompact_Icc.measure_ne_top)

/-- The Ornstein-Uhlenbeck kernel. -/
theorem PSDKernel.ou {ι : Type} [Finite ι] (f : ι → ℝ) (L : ℝ) (hL : 0 < L) : PSDKernel (fun i j => Real.exp (-|f i - f j| / L)) := by
  have h1 := (PSDKernel.rankOne (fun i => Real.exp (-f i / L))).mul (PSDKernel.min (fun i => Real.exp (2 * f i / L)) (fun i => (Real.exp_pos _).le))
  convert h1 using 3 with i j
  rcases le_total (f i) (f j) with h | h
  · have h2 : Real.exp (2 * f i / L) ≤ Real.exp (2 * f j / L) := Real.exp_le_exp.2 (by gcongr)
    rw [min_eq_left h2, ← Real.exp_add, ← Real.exp_add, abs_of_nonpos (by linarith)]
    congr 1
    ring
  · have h2 : Real.exp (2 * f j / L) ≤ Real.exp (2 * f i / L) := Real.exp_le_exp.2 (by gcongr)
    rw [min_eq_right h2, ← Real.exp_add, ← Real.exp_add, abs_of_nonneg (by linarith)]
    congr 1
    ring

theorem cos_abs_kernel {ι : Type} (f : ι → ℝ) (P : ℝ) : PSDKernel (fun i j => cos (2 * π * |f i - f j| / P)) := by
  have h1 := (PSDKernel.rankOne (fun i => cos (2 * π * f i / P))).add (PSDKernel.rankOne (fun i => sin (2 * π * f i / P)))
  convert h1 using 3 with i j
  rw [← cos_sub]
  rcases abs_choice (f i - f j) with h | h
  · rw [h]; congr 1; ring
  · rw [h, mul_neg, neg_div, cos_neg]; congr 1; ring

/-- The documented kernel. -/
theorem celCov_psd {ι : Type} [Finite ι] (v : CelVals) (hv : CelRegular v) (f : ι → ℝ) : PSDKernel (fun i j => celCov v (f i) (f j)) := by
  have h2 : 0 < 2 + v.C := by linarith [hv.C]
  have := ((PSDKernel.ou f v.L hv.L).smul (c := v.B / (2 + v.C)) (div_nonneg hv.B h2.le)).mul ((cos_abs_kernel f v.Prot).add (PSDKernel.const (ι := ι) (c := 1 + v.C) (by linarith [hv.C])))
  exact this

theorem celCov_symm (v : CelVals) (a b : ℝ) : celCov v a b = celCov v b a := by unfold celCov; rw [abs_sub_comm]

theorem celDataCov_posDef (v : CelVals) (hv : CelRegular v) (obs : List Obs) (he : ∀ o ∈ obs, o.err ≠ 0 ∨ v.jit ≠ 0) : (celDataCov v obs).PosDef := by
  have := posDef_of_psd (celCov_psd v hv (fun i : Fin obs.length => obs[i].t)) (fun i => obs[i].err ^ 2 + v.jit ^ 2) (fun i => by
    rcases he _ (List.getElem_mem (l := obs) i.2) with h | h
    · have := sq_pos_of_ne_zero h
      exact add_pos_of_pos_of_nonneg this (sq_nonneg _)
    · have := sq_pos_of_ne_zero h
      exact add_pos_of_nonneg_of_pos (sq_nonneg _) this)
  exact this

theorem term_eq_celCov (v : CelVals) (hC : 2 + v.C ≠ 0) (a b : ℝ) : (celeriteCoeffs v.B v.C v.L v.Prot).term |a - b| = celCov v a b := by
  rw [C40_term _ _ _ _ _ hC]
  unfold celCov
  ring

/-! ### relabelling -/

theorem quad_equiv {m n : Nat} (e : Fin m ≃ Fin n) (C : Matrix (Fin n) (Fin n) ℝ) (k r : Fin n → ℝ) :
    (fun i => k (e i)) ⬝ᵥ ((C.submatrix e e)⁻¹ *ᵥ (fun i => r (e i))) = k ⬝ᵥ (C⁻¹ *ᵥ r) := by
  rw [Matrix.inv_submatrix_equiv, Matrix.submatrix_mulVec_equiv]
  have : (fun i => r (e i)) ∘ e.symm = r := by funext i; simp
  rw [this]
  show (k ∘ e) ⬝ᵥ ((C⁻¹ *ᵥ r) ∘ e) = _
  rw [comp_equiv_dotProduct_comp_equiv]

theorem celDataCov_equiv (v : CelVals) {l l' : List Obs} (e : Fin l'.length ≃ Fin l.length) (he : ∀ i : Fin l'.length, l'[i] = l[e i]) :
    celDataCov v l' = (celDataCov v l).submatrix e e := by
  ext i j
  show celDataCov v l' i j = celDataCov v l (e i) (e j)
  unfold celDataCov
  simp only [he, EmbeddingLike.apply_eq_iff_eq]

theorem celMean_perm (v : CelVals) (M : ℝ → ℝ) {l l' : List Obs} (h : l.Perm l') (x : ℝ) : celMean v M l' x = celMean v M l x := by
  obtain ⟨e, he⟩ := perm_equiv h
  unfold celMean
  rw [celDataCov_equiv v e he, ← quad_equiv e]
  congr 1
  · funext j; rw [he]
  · congr 1; funext j; unfold celRes; rw [he]

theorem celVar_perm (v : CelVals) {l l' : List Obs} (h : l.Perm l') (x : ℝ) : celVar v l' x = celVar v l x := by
  obtain ⟨e, he⟩ := perm_equiv h
  unfold celVar
  rw [celDataCov_equiv v e he, ← quad_equiv e]
  congr 2
  · funext j; rw [he]
  · congr 1; funext j; rw [he]

/-! ### the package's matrices are those of the data -/

theorem castVec {m n : Nat} (h : m = n) (C : Matrix (Fin n) (Fin n) ℝ) (k r : Fin n → ℝ) (C' : Matrix (Fin m) (Fin m) ℝ) (k' r' : Fin m → ℝ)
    (hC : ∀ i j : Fin m, C' i j = C (i.cast h) (j.cast h)) (hk : ∀ i : Fin m, k' i = k (i.cast h)) (hr : ∀ i : Fin m, r' i = r (i.cast h)) :
    k' ⬝ᵥ (C'⁻¹ *ᵥ r') = k ⬝ᵥ (C⁻¹ *ᵥ r) ∧ C'.det = C.det ∧ (C'.PosDef ↔ C.PosDef) := by
  subst h
  have h1 : C' = C := by ext i j; exact hC i j
  have h2 : k' = k := by funext i; exact hk i
  have h3 : r' = r := by funext i; exact hr i
  rw [h1, h2, h3]
  exact ⟨rfl, rfl, Iff.rfl⟩

/-- The conditional variance is not negative and at most the variance of the process. -/
theorem celVar_bounds (v : CelVals) (hv : CelRegular v) (obs : List Obs) (he : ∀ o ∈ obs, o.err ≠ 0 ∨ v.jit ≠ 0) (x : ℝ) : 0 ≤ celVar v obs x ∧ celVar v obs x ≤ celCov v x x := by
  have hpd := celDataCov_posDef v hv obs he
  set C := celDataCov v obs with hC
  set k : Fin obs.length → ℝ := fun j => celCov v x obs[j].t with hk
  have hup : 0 ≤ k ⬝ᵥ (C⁻¹ *ᵥ k) := by
    have := hpd.inv.posSemidef
    have := (posSemidef_iff_dotProduct_mulVec.1 this).2 k
    simpa using this
  constructor
  · apply schur_nonneg C hpd
    let pts : Fin obs.length ⊕ Unit → ℝ := Sum.elim (fun j => obs[j].t) (fun _ => x)
    have hp1 := celCov_psd v hv pts
    have hp2 : (Matrix.diagonal (Sum.elim (fun j : Fin obs.length => obs[j].err ^ 2 + v.jit ^ 2) (fun _ : Unit => (0 : ℝ)))).PosSemidef := by
      apply PosSemidef.diagonal
      rintro (j | j)
      · show (0 : ℝ) ≤ obs[j].err ^ 2 + v.jit ^ 2; positivity
      · exact le_refl _
    have := PosSemidef.add (A := Matrix.of fun i j => celCov v (pts i) (pts j)) hp1 hp2
    convert this using 1
    ext a b
    rcases a with a | a <;> rcases b with b | b
    · simp only [Matrix.fromBlocks_apply₁₁, Matrix.add_apply, Matrix.of_apply, Matrix.diagonal_apply, Sum.inl.injEq]
      rfl
    · simp only [Matrix.fromBlocks_apply₁₂, Matrix.add_apply, Matrix.of_apply, Matrix.diagonal_apply]
      rw [if_neg (by simp), add_zero]
      exact celCov_symm _ _ _
    · simp only [Matrix.fromBlocks_apply₂₁, Matrix.add_apply, Matrix.of_apply, Matrix.diagonal_apply, Matrix.conjTranspose_apply, star_trivial]
      rw [if_neg (by simp), add_zero]
      rfl
    · simp [pts]
  · unfold celVar
    linarith

end Radvel
