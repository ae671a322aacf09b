import Verif.Model.Rounded

/-!
# The log-likelihood of a data set with rounded operations

`loglike_jitter`, `RVLikelihood.residuals` and `RVLikelihood.logprob` (`radvel/likelihood.py` 355-415, 654-672) with operations that may round. Simplified: `gamma` is not marginalized, there is no decorrelation, and no
value is infinite or nan.
-/

namespace Radvel

/-- The operations used in the likelihood: those of the velocities, `np.log` and `np.sum`. Used for /repo/radvel/likelihood.py 667-670. -/
structure LikeOps extends Ops where
  log : ℝ → ℝ
  sum : List ℝ → ℝ

/-- One measurement with the computed velocity of the model. Models the arrays `self.y`, `self.yerr` and `mod` of /repo/radvel/likelihood.py 359-368. -/
structure RPoint where
  y : ℝ
  err : ℝ
  mod : ℝ

variable (O : LikeOps)

/-- `sigma**2 + sigma_jit**2`, /repo/radvel/likelihood.py 667. NumPy squares by one product. -/
def LikeOps.sumSigQuad (jit sigma : ℝ) : ℝ := O.add (O.mul sigma sigma) (O.mul jit jit)

/-- `loglike_jitter(residuals, sigma, sigma_jit)`, /repo/radvel/likelihood.py 654-672. -/
noncomputable def LikeOps.loglikeJitter (residuals sigma : List ℝ) (jit : ℝ) : ℝ :=
  let sumSigQuad := sigma.map (O.sumSigQuad jit)
  let penalty := O.sum (sumSigQuad.map fun q => O.log (O.sqrt (O.mul (O.mul 2 (O.lit Real.pi)) q)))
  let chi2 := O.sum (residuals.zipWith (fun r q => O.div (O.mul r r) q) sumSigQuad)
  O.sub (O.mul (-0.5) chi2) penalty

/-- `self.y - self.vector.vector[self.gamma_index][0] - mod`, /repo/radvel/likelihood.py 368. -/
def LikeOps.residual (gamma : ℝ) (p : RPoint) : ℝ := O.sub (O.sub p.y gamma) p.mod

/-- `RVLikelihood.logprob`, /repo/radvel/likelihood.py 393-415. -/
noncomputable def LikeOps.logprob (gamma jit : ℝ) (pts : List RPoint) : ℝ :=
  O.loglikeJitter (pts.map (O.residual gamma)) (pts.map RPoint.err) jit

end Radvel
