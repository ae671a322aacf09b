import Verif.Lemmas.GPReach
import Verif.Lemmas.KernelPSD
import Mathlib.Analysis.Matrix.PosDef
import Mathlib.Data.List.GetD
import Mathlib.LinearAlgebra.Matrix.NonsingularInverse

/-! Covariance matrices: what `compute_covmatrix` returns, positive definiteness, and the value of `logprob`. -/

namespace Radvel
open Real Matrix

theorem Kernel.Has.par {k : Kernel} {h : String → ℝ} (hh : k.Has h) {slot : String} (hs : slot.toList ∈ k.kind.slots) : k.par slot = h slot := by
  unfold Kernel.par; rw [hh slot hs]; rfl

theorem clip_neg {x : ℝ} (hx : 0 ≤ x) : clip100 (-x) = -(min 100 x) := by
  unfold clip100
  rw [min_eq_right (by linarith), max_neg_neg]

/-- With regular hyperparameters `compute_covmatrix` stores and returns the table of covariances plus the squared errors. -/
theorem computeCov_regular {k : Kernel} {h : String → ℝ} (hh : k.Has h) (hr : Regular k.kind h) (es : Option (List ℝ)) :
    k.computeCov es = k.store (Mat.table (fun a b => some (gpCov k.kind h a b)) k.x1 k.x2) es := by
  obtain ⟨kind, hp, x1, x2, cov⟩ := k
  cases kind with
  | sqExp =>
    unfold Kernel.computeCov
    simp only
    rw [hh.par (slot := "gp_length") (show "gp_length".toList ∈ KernelKind.sqExp.slots by decide), hh.par (slot := "gp_amp") (show "gp_amp".toList ∈ KernelKind.sqExp.slots by decide)]
    have hl : h "gp_length" ≠ 0 := hr
    congr 2
    funext a b
    unfold sqExpEntry gpCov distSq
    rw [if_neg hl, sq_abs, neg_div]
  | per =>
    unfold Kernel.computeCov
    simp only
    rw [hh.par (slot := "gp_length") (show "gp_length".toList ∈ KernelKind.per.slots by decide), hh.par (slot := "gp_amp") (show "gp_amp".toList ∈ KernelKind.per.slots by decide), hh.par (slot := "gp_per") (show "gp_per".toList ∈ KernelKind.per.slots by decide)]
    have hl : h "gp_length" ≠ 0 ∧ h "gp_per" ≠ 0 := hr
    congr 2
    funext a b
    unfold perEntry gpCov distAbs
    rw [if_neg hl.2]
    simp only
    rw [if_neg hl.1, neg_div]
  | quasiPer =>
    unfold Kernel.computeCov
    simp only
    rw [hh.par (slot := "gp_perlength") (show "gp_perlength".toList ∈ KernelKind.quasiPer.slots by decide), hh.par (slot := "gp_amp") (show "gp_amp".toList ∈ KernelKind.quasiPer.slots by decide), hh.par (slot := "gp_per") (show "gp_per".toList ∈ KernelKind.quasiPer.slots by decide), hh.par (slot := "gp_explength") (show "gp_explength".toList ∈ KernelKind.quasiPer.slots by decide)]
    obtain ⟨h1, h2, h3, h4⟩ : 0 < h "gp_amp" ∧ 0 < h "gp_per" ∧ 0 < h "gp_explength" ∧ 0 < h "gp_perlength" := hr
    rw [if_neg (by push Not; exact ⟨h1.le, h2.le, h3.le, h4.le⟩), if_neg (by push Not; exact ⟨h1.ne', h2.ne', h3.ne', h4.ne'⟩)]
    congr 2
    funext a b
    unfold quasiEntry gpCov distAbs distSq
    rw [neg_div, clip_neg (by positivity), neg_div, clip_neg (by positivity), sq_abs, mul_assoc, ← exp_add, ← sub_eq_add_neg]

theorem gpCov_symm (kind : KernelKind) (h : String → ℝ) (a b : ℝ) : gpCov kind h a b = gpCov kind h b a := by
  unfold gpCov; rw [abs_sub_comm]

theorem gpCov_self (kind : KernelKind) (h : String → ℝ) (a : ℝ) : gpCov kind h a a = h "gp_amp" ^ 2 := by
  unfold gpCov; cases kind <;> simp

theorem gpCov_nonneg (kind : KernelKind) (h : String → ℝ) (a b : ℝ) : 0 ≤ gpCov kind h a b := by
  unfold gpCov; cases kind <;> positivity

theorem gpCov_le (kind : KernelKind) (h : String → ℝ) (a b : ℝ) : gpCov kind h a b ≤ h "gp_amp" ^ 2 := by
  have key : ∀ x : ℝ, x ≤ 0 → h "gp_amp" ^ 2 * exp x ≤ h "gp_amp" ^ 2 := by
    intro x hx
    have := exp_le_one_iff.2 hx
    nlinarith [sq_nonneg (h "gp_amp")]
  unfold gpCov
  cases kind with
  | sqExp => exact key _ (by rw [neg_nonpos]; positivity)
  | per => exact key _ (by rw [neg_nonpos]; positivity)
  | quasiPer =>
    refine key _ ?_
    have h1 : 0 ≤ min 100 (|a - b| ^ 2 / h "gp_explength" ^ 2) := by positivity
    have h2 : 0 ≤ min 100 (sin (π * |a - b| / h "gp_per") ^ 2 / (2 * h "gp_perlength" ^ 2)) := by positivity
    linarith

/-! ### positive semidefinite kernels -/

theorem gpCov_sqExp_psd (h : String → ℝ) : PSDKernel (gpCov .sqExp h) := by
  have := (PSDKernel.sqExp (h "gp_length")).smul (c := h "gp_amp" ^ 2) (by positivity)
  convert this using 3
  unfold gpCov
  simp only
  rw [sq_abs, neg_div]

theorem gpCov_per_psd (h : String → ℝ) : PSDKernel (gpCov .per h) := by
  have := (PSDKernel.per (h "gp_per") (h "gp_length")).smul (c := h "gp_amp" ^ 2) (by positivity)
  convert this using 3
  unfold gpCov
  simp only
  rw [neg_div]

/-- The quasi-periodic covariance without the cut-off. -/
noncomputable def quasiCov (h : String → ℝ) (a b : ℝ) : ℝ :=
  h "gp_amp" ^ 2 * exp (-(|a - b| ^ 2 / h "gp_explength" ^ 2) - sin (π * |a - b| / h "gp_per") ^ 2 / (2 * h "gp_perlength" ^ 2))

theorem quasiCov_psd (h : String → ℝ) : PSDKernel (quasiCov h) := by
  have := ((PSDKernel.sqExp (h "gp_explength")).mul (PSDKernel.per (h "gp_per") (h "gp_perlength"))).smul (c := h "gp_amp" ^ 2) (by positivity)
  convert this using 3
  unfold quasiCov
  rw [← exp_add, sq_abs, neg_div, neg_div, ← sub_eq_add_neg]

theorem PSDKernel.submatrix {ι κ : Type} {k : ι → ι → ℝ} (hk : PSDKernel k) (f : κ → ι) : PSDKernel (fun i j => k (f i) (f j)) :=
  PosSemidef.submatrix hk f

/-! ### the value of `logprob` -/

theorem upper_of_symm {n : Nat} (K : Mat) (C : Matrix (Fin n) (Fin n) ℝ) (hK : ∀ i j : Fin n, K.e i j = some (C i j)) (hC : ∀ i j, C i j = C j i) :
    K.real n n = C ∧ K.upper n = C := by
  have h1 : K.real n n = C := by
    ext i j; unfold Mat.real; rw [hK]; rfl
  refine ⟨h1, ?_⟩
  ext i j
  unfold Mat.upper
  rw [h1]
  split
  · rfl
  · exact hC j i

theorem log_mvnDensity {n : Nat} (C : Matrix (Fin n) (Fin n) ℝ) (hC : C.PosDef) (r : Fin n → ℝ) :
    -0.5 * (r ⬝ᵥ (C⁻¹ *ᵥ r) + log |C.det| + n * log (2 * π)) = log (mvnDensity C r) := by
  have hd : 0 < C.det := hC.det_pos
  have hp : (0 : ℝ) < (2 * π) ^ n * C.det := by positivity
  unfold mvnDensity
  rw [log_div (exp_ne_zero _) (sqrt_ne_zero'.2 hp), log_exp, log_sqrt hp.le, log_mul (by positivity) hd.ne', log_pow, abs_of_pos hd]
  ring

open Classical in
theorem gpValue_spec {n : Nat} (K : Mat) (hm : K.m = n) (hn : K.n = n) (C : Matrix (Fin n) (Fin n) ℝ) (hK : ∀ i j : Fin n, K.e i j = some (C i j))
    (hC : ∀ i j, C i j = C j i) (r : List (Option ℝ)) (hrl : r.length = n) (ρ : Fin n → ℝ) (hr : ∀ i : Fin n, r.getD i none = some (ρ i)) :
    gpValue n r K = if C.PosDef then .fin (log (mvnDensity C ρ)) else .neg := by
  obtain ⟨m, n', e⟩ := K
  simp only at hm hn
  subst hm; subst hn
  obtain ⟨h1, h2⟩ := upper_of_symm ⟨n', n', e⟩ C hK hC
  have hv : vec n' r = ρ := by
    funext i; unfold vec; rw [hr]; rfl
  have hnan : ¬ (⟨n', n', e⟩ : Mat).hasNan := by
    rintro ⟨i, j, hi, hj, h⟩
    have := hK ⟨i, hi⟩ ⟨j, hj⟩
    simp only at this h hi hj
    rw [h] at this; cases this
  have hnr : none ∉ r := by
    intro h
    obtain ⟨i, hi, e⟩ := List.getElem_of_mem h
    have := hr ⟨i, by omega⟩
    rw [List.getD_eq_getElem _ _ hi, e] at this; cases this
  unfold gpValue
  simp only
  rw [h1, h2, hv]
  by_cases hp : C.PosDef
  · rw [if_pos ⟨trivial, hrl, hnan, hnr, hp⟩, if_pos hp, if_neg hp.det_pos.ne', log_mvnDensity C hp]
  · rw [if_neg (by rintro ⟨_, _, _, _, h⟩; exact hp h), if_neg hp]

end Radvel
