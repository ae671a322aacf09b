import Verif.Lemmas.Celerite
import Mathlib.Analysis.Complex.ExponentialBounds

/-!
# C176: the likelihood and the predictions of `CeleriteLikelihood`
-/

namespace Radvel
open Real Matrix

/-- C176: for `B ≥ 0`, `C ≥ -1` and `L > 0` the documented function is positive semidefinite on any times, and with the uncertainties on the diagonal positive definite. -/
theorem C176_posDef (v : CelVals) (hv : CelRegular v) (obs : List Obs) :
    (Matrix.of fun i j : Fin obs.length => celCov v obs[i].t obs[j].t).PosSemidef ∧ ((∀ o ∈ obs, o.err ≠ 0 ∨ v.jit ≠ 0) → (celDataCov v obs).PosDef) :=
  ⟨celCov_psd v hv (fun i : Fin obs.length => obs[i].t), celDataCov_posDef v hv obs⟩

theorem celSorted_mergeSort (obs : List Obs) : ((obs.mergeSort (fun a b => decide (a.t ≤ b.t))).map Obs.t).Pairwise (· ≤ ·) := by
  rw [List.pairwise_map]
  have := List.pairwise_mergeSort (le := fun a b : Obs => decide (a.t ≤ b.t)) (by intro a b c; simp; exact le_trans) (by intro a b; simp; exact le_total _ _) obs
  simpa using this

/-- C176: if the data are in the order of their times, `logprob` is the logarithm of the density of the residuals under the normal distribution with the documented covariance plus the squared
uncertainties; it is never `-inf` (missing: data in another order, see C85, and hyperparameters that are not regular, see `C176_C_violated`). -/
theorem C176_logprob_partial (pkg : CelPkg) (hp : IsCelerite pkg) (v : CelVals) (hv : CelRegular v) (obs : List Obs) (hs : obs.Pairwise (fun a b => a.t ≤ b.t)) (he : ∀ o ∈ obs, o.err ≠ 0 ∨ v.jit ≠ 0) (M : ℝ → ℝ) :
    (CelLike.new obs).logprob pkg v M = .fin (log (mvnDensity (celDataCov v obs) (celRes v M obs))) := by
  have hC : 2 + v.C ≠ 0 := by linarith [hv.C]
  have hsort : (CelLike.new obs).obs = obs := List.mergeSort_of_pairwise (by simpa using hs)
  have hx : (CelLike.new obs).kernelX = obs.map Obs.t := rfl
  have hlen : (obs.map Obs.t).length = obs.length := by simp
  have hK : ∀ i j : Fin (obs.map Obs.t).length, pkgCov (celeriteCoeffs v.B v.C v.L v.Prot) (obs.map Obs.t) (((CelLike.new obs).errorbars v).map (· ^ 2)) i j = celDataCov v obs (i.cast hlen) (j.cast hlen) := by
    intro i j
    unfold pkgCov celDataCov CelLike.errorbars
    rw [term_eq_celCov v hC, hsort]
    have hi : (i : Nat) < obs.length := by have := i.2; simpa using this
    simp only [Fin.getElem_fin, List.getElem_map, Fin.val_cast]
    congr 1
    by_cases h : i = j
    · subst h
      rw [if_pos rfl, if_pos rfl, List.getD_eq_getElem _ _ (by simpa using hi)]
      simp only [List.getElem_map]
      exact Real.sq_sqrt (by positivity)
    · rw [if_neg h, if_neg (by intro hc; apply h; exact Fin.ext (by simpa using congrArg Fin.val hc))]
  have hr : ∀ i : Fin (obs.map Obs.t).length, listVec (obs.map Obs.t).length ((CelLike.new obs).resids v M) i = celRes v M obs (i.cast hlen) := by
    intro i
    have hi : (i : Nat) < obs.length := by have := i.2; simpa using this
    unfold listVec CelLike.resids celRes
    rw [hsort, List.getD_eq_getElem _ _ (by simpa using hi)]
    simp
  obtain ⟨c1, c2, c3⟩ := castVec hlen (celDataCov v obs) (celRes v M obs) (celRes v M obs) _ _ _ hK hr hr
  have hpd := celDataCov_posDef v hv obs he
  obtain ⟨s, s1, s2, s3⟩ := hp.compute _ (obs.map Obs.t) (((CelLike.new obs).errorbars v).map (· ^ 2)) (by rw [List.pairwise_map]; exact hs)
    (by simp [CelLike.errorbars, hsort]) (c3.2 hpd)
  unfold CelLike.logprob
  rw [hx, s1]
  simp only
  rw [s3 _ (by simp [CelLike.resids, hsort]), s2, c1, c2, hsort, ← log_mvnDensity _ hpd, abs_of_pos hpd.det_pos]

/-- C176: whatever the order of the data, the predictions are the conditional means and standard deviations of the process given the data, and the latter are real numbers up to `√B`
(missing: negative jitter, see `C176_jitter_violated`, and hyperparameters that are not regular). -/
theorem C176_predict_partial (pkg : CelPkg) (hp : IsCelerite pkg) (v : CelVals) (hv : CelRegular v) (hj : 0 ≤ v.jit) (hP : 0 < v.Prot) (obs : List Obs) (he : ∀ o ∈ obs, o.err ≠ 0 ∨ v.jit ≠ 0) (M : ℝ → ℝ) (xs : List ℝ) :
    (CelLike.new obs).predict pkg v M xs = .ok (xs.map (celMean v M obs)) (xs.map (fun x => some √(celVar v obs x))) ∧ ∀ x, 0 ≤ celVar v obs x ∧ celVar v obs x ≤ v.B := by
  have h2 : 0 < 2 + v.C := by linarith [hv.C]
  have hC : 2 + v.C ≠ 0 := h2.ne'
  refine ⟨?_, fun x => ?_⟩
  swap
  · have := celVar_bounds v hv obs he x
    have h0 : celCov v x x = v.B := by
      rw [← term_eq_celCov v hC, sub_self, abs_zero, C40_zero _ _ _ _ hC]
    rw [h0] at this
    exact this
  have hker : CelLike.predictKernel v = some (v.jit, celeriteCoeffs v.B v.C v.L v.Prot) := by
    have n1 : ¬ (v.B * (1 + v.C) / (2 + v.C)) < 0 := not_lt.2 (div_nonneg (mul_nonneg hv.B (by linarith [hv.C])) h2.le)
    have n2 : ¬ (1 / v.L) < 0 := not_lt.2 (by have := hv.L; positivity)
    have n3 : ¬ (v.B / (2 + v.C)) < 0 := not_lt.2 (div_nonneg hv.B h2.le)
    have n4 : ¬ (2 * π / v.Prot) < 0 := not_lt.2 (by positivity)
    unfold CelLike.predictKernel expLog
    rw [if_neg (not_lt.2 hj), if_neg n1, if_neg n2, if_neg n3, if_neg n4]
    rfl
  obtain ⟨l, hl⟩ : ∃ l, l = obs.mergeSort (fun a b => decide (a.t ≤ b.t)) := ⟨_, rfl⟩
  have hobs : (CelLike.new obs).obs = l := hl.symm
  have hperm : obs.Perm l := by rw [hl]; exact (List.mergeSort_perm _ _).symm
  have hsorted : (l.map Obs.t).Pairwise (· ≤ ·) := by rw [hl]; exact celSorted_mergeSort obs
  have hlen : (l.map Obs.t).length = l.length := by simp
  have he' : ∀ o ∈ l, o.err ≠ 0 ∨ v.jit ≠ 0 := fun o ho => he o (hperm.mem_iff.2 ho)
  have hK : ∀ i j : Fin (l.map Obs.t).length, pkgCov (celeriteCoeffs v.B v.C v.L v.Prot) (l.map Obs.t) ((l.map Obs.err).map (fun e => e ^ 2 + v.jit ^ 2)) i j = celDataCov v l (i.cast hlen) (j.cast hlen) := by
    intro i j
    unfold pkgCov celDataCov
    rw [term_eq_celCov v hC]
    have hi : (i : Nat) < l.length := by have := i.2; simpa using this
    simp only [Fin.getElem_fin, List.getElem_map, Fin.val_cast]
    congr 1
    by_cases h : i = j
    · subst h
      rw [if_pos rfl, if_pos rfl, List.getD_eq_getElem _ _ (by simpa using hi)]
      simp only [List.getElem_map]
    · rw [if_neg h, if_neg (by intro hc; apply h; exact Fin.ext (by simpa using congrArg Fin.val hc))]
  have hr : ∀ i : Fin (l.map Obs.t).length, listVec (l.map Obs.t).length ((CelLike.new obs).resids v M) i = celRes v M l (i.cast hlen) := by
    intro i
    have hi : (i : Nat) < l.length := by have := i.2; simpa using this
    unfold listVec CelLike.resids celRes
    rw [hobs, List.getD_eq_getElem _ _ (by simpa using hi)]
    simp
  have hk : ∀ x, ∀ i : Fin (l.map Obs.t).length, (celeriteCoeffs v.B v.C v.L v.Prot).term |x - (l.map Obs.t)[i]| = celCov v x l[i.cast hlen].t := by
    intro x i
    rw [term_eq_celCov v hC]
    simp
  have hpd := celDataCov_posDef v hv l he'
  have key := hp.predict v.jit (celeriteCoeffs v.B v.C v.L v.Prot) (l.map Obs.t) (l.map Obs.err) ((CelLike.new obs).resids v M) xs hsorted (by simp) (by simp [CelLike.resids, hobs])
    ((castVec hlen (celDataCov v l) (celRes v M l) (celRes v M l) _ _ _ hK hr hr).2.2.2 hpd)
  unfold CelLike.predict
  rw [hker]
  simp only
  rw [hobs, key]
  simp only
  congr 1
  · apply List.map_congr_left
    intro x _
    rw [(castVec hlen (celDataCov v l) (fun j => celCov v x l[j].t) (celRes v M l) _ _ _ hK (hk x) hr).1, ← celMean_perm v M hperm]
    rfl
  · rw [List.map_map]
    apply List.map_congr_left
    intro x _
    simp only [Function.comp]
    have h3 := (castVec hlen (celDataCov v l) (fun j => celCov v x l[j].t) (fun j => celCov v x l[j].t) _ _ _ hK (hk x) (hk x)).1
    have h0 : (celeriteCoeffs v.B v.C v.L v.Prot).term 0 = celCov v x x := by
      rw [← term_eq_celCov v hC, sub_self, abs_zero]
    rw [h3, h0]
    have h4 : celCov v x x - (fun j : Fin l.length => celCov v x l[j].t) ⬝ᵥ ((celDataCov v l)⁻¹ *ᵥ (fun j : Fin l.length => celCov v x l[j].t)) = celVar v obs x := by
      rw [← celVar_perm v hperm]; rfl
    rw [h4]
    unfold npSqrt
    rw [if_neg (not_lt.2 (celVar_bounds v hv obs he x).1)]

open Classical in
/-- A package that does what it documents. -/
noncomputable def idealCelerite : CelPkg where
  compute := fun c ts vs =>
    if (pkgCov c ts vs).PosDef then some ⟨fun r => listVec ts.length r ⬝ᵥ ((pkgCov c ts vs)⁻¹ *ᵥ listVec ts.length r), log (pkgCov c ts vs).det⟩ else none
  predict := fun sigma c ts es r xs =>
    let K := pkgCov c ts (es.map (fun e => e ^ 2 + sigma ^ 2))
    some (xs.map (fun x => (fun j : Fin ts.length => c.term |x - ts[j]|) ⬝ᵥ (K⁻¹ *ᵥ listVec ts.length r)),
      xs.map (fun x => c.term 0 - (fun j : Fin ts.length => c.term |x - ts[j]|) ⬝ᵥ (K⁻¹ *ᵥ (fun j : Fin ts.length => c.term |x - ts[j]|))))

theorem idealCelerite_is : IsCelerite idealCelerite where
  compute := fun _ _ _ _ _ h => ⟨_, if_pos h, rfl, fun _ _ => rfl⟩
  fails := fun _ _ _ _ _ h => if_neg h
  predict := fun _ _ _ _ _ _ _ _ _ _ => rfl

/-- Non-vacuity of C176: the starting values of the example K2-131, three observations with two at the same time. -/
example : IsCelerite idealCelerite ∧ CelRegular ⟨26 ^ 2, 1 / 10, 12, 9, 0, 2⟩ ∧ (0 : ℝ) ≤ (CelVals.mk (26 ^ 2) (1 / 10) 12 9 0 2).jit ∧ (0 : ℝ) < (CelVals.mk (26 ^ 2) (1 / 10) 12 9 0 2).Prot ∧
    [({ t := 0, y := 3, err := 1 } : Obs), { t := 1, y := 4, err := 2 }, { t := 1, y := 5, err := 0 }].Pairwise (fun a b => a.t ≤ b.t) := by
  refine ⟨idealCelerite_is, ⟨by norm_num, by norm_num, by norm_num⟩, by norm_num, by norm_num, by simp⟩

/-- C176 fails for a negative jitter, which the likelihood squares and so accepts: the kernel of the predictions has a nan. -/
theorem C176_jitter_violated (pkg : CelPkg) (hp : IsCelerite pkg) (v : CelVals) (hv : CelRegular v) (hj : v.jit < 0) (obs : List Obs) (hs : obs.Pairwise (fun a b => a.t ≤ b.t)) (M : ℝ → ℝ) (xs : List ℝ) :
    (CelLike.new obs).predict pkg v M xs = .nanKernel ∧ (CelLike.new obs).logprob pkg v M = .fin (log (mvnDensity (celDataCov v obs) (celRes v M obs))) := by
  refine ⟨?_, C176_logprob_partial pkg hp v hv obs hs (fun _ _ => .inr hj.ne) M⟩
  unfold CelLike.predict CelLike.predictKernel expLog
  rw [if_pos hj]
  rfl

/-- Non-vacuity of `C176_jitter_violated`. -/
example : CelRegular ⟨1, 0, 2, 2, 0, -1⟩ ∧ (CelVals.mk 1 0 2 2 0 (-1)).jit < 0 := by
  refine ⟨⟨by norm_num, by norm_num, by norm_num⟩, by norm_num⟩

/-- C176 fails for `C` below -1, which nothing excludes: with `B = 1`, `C = -3/2` the matrix of two precise observations is not positive definite, and `logprob` is `-inf`. -/
theorem C176_C_violated (pkg : CelPkg) (hp : IsCelerite pkg) (y0 y1 : ℝ) (M : ℝ → ℝ) :
    (CelLike.new [{ t := 0, y := y0, err := 0.1 }, { t := 1, y := y1, err := 0.1 }]).logprob pkg ⟨1, -3 / 2, 2, 2, 0, 0⟩ M = .neg := by
  have hsort : (CelLike.new [{ t := 0, y := y0, err := 0.1 }, { t := 1, y := y1, err := 0.1 }]).obs = [{ t := 0, y := y0, err := 0.1 }, { t := 1, y := y1, err := 0.1 }] :=
    List.mergeSort_of_pairwise (by simp)
  unfold CelLike.logprob
  rw [hp.fails]
  · simp [CelLike.new]
  · simp [CelLike.errorbars, CelLike.new]
  · intro hpd
    have hd := hpd.det_pos
    have hv : ((CelLike.new [{ t := 0, y := y0, err := 0.1 }, { t := 1, y := y1, err := 0.1 }]).errorbars ⟨1, -3 / 2, 2, 2, 0, 0⟩).map (· ^ 2) = [0.01, 0.01] := by
      unfold CelLike.errorbars
      rw [hsort]
      simp only [List.map_cons, List.map_nil]
      rw [Real.sq_sqrt (by positivity)]
      norm_num
    rw [hv] at hd
    have h0 : (celeriteCoeffs 1 (-3 / 2) 2 2).term 0 = 1 := C40_zero _ _ _ _ (by norm_num)
    have h1 : 1.1 < |(celeriteCoeffs 1 (-3 / 2) 2 2).term 1| := by
      rw [C40_term _ _ _ _ _ (by norm_num), show 2 * π * 1 / 2 = π by ring, cos_pi]
      have h1 : (1 / 1.65 : ℝ) < exp (-1 / 2) := by
        rw [show (-1 / 2 : ℝ) = -(1 / 2) by ring, exp_neg, one_div]
        apply inv_strictAnti₀ (exp_pos _)
        have := exp_one_lt_d9
        have h2 : exp (1 / 2) ^ 2 = exp 1 := by rw [← exp_nat_mul]; norm_num
        have h3 := exp_pos (1 / 2 : ℝ)
        nlinarith
      rw [abs_mul, abs_mul, abs_of_pos (exp_pos _)]
      norm_num at h1 ⊢
      linarith
    have hdet : (pkgCov (celeriteCoeffs 1 (-3 / 2) 2 2) [0, 1] [0.01, 0.01]).det = ((celeriteCoeffs 1 (-3 / 2) 2 2).term 0 + 0.01) ^ 2 - (celeriteCoeffs 1 (-3 / 2) 2 2).term 1 ^ 2 := by
      show Matrix.det (n := Fin 2) _ = _
      rw [Matrix.det_fin_two]
      simp [pkgCov]
      ring
    have hd' : 0 < (pkgCov (celeriteCoeffs 1 (-3 / 2) 2 2) [0, 1] [0.01, 0.01]).det := hd
    rw [hdet, h0, ← sq_abs ((celeriteCoeffs 1 (-3 / 2) 2 2).term 1)] at hd'
    nlinarith

end Radvel
