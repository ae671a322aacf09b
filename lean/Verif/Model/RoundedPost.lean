import Verif.Model.RoundedLike

/-!
# The log-posterior with rounded operations

`Gaussian.__call__`, `HardBounds.__call__`, `Jeffreys.__call__`, `ModifiedJeffreys.__call__` (`radvel/prior.py` 39-41, 217-226, 335-340, 391-396), `CompositeLikelihood.logprob` and `Posterior.logprob` with operations that may round. Simplified: no value is infinite or nan except the
`-inf` of a violated bound, which is `none`; other priors are left out.
-/

namespace Radvel

/-- The operations of the posterior: those of the likelihood and `**2`, for which the library function `pow` is called. Used for /repo/radvel/prior.py 41. -/
structure PostOps extends LikeOps where
  pow2 : ℝ → ℝ

/-- A prior on one parameter: `Gaussian`, `HardBounds` with finite bounds, `Jeffreys`, `ModifiedJeffreys`. Models /repo/radvel/prior.py 23-41, 194-226, 312-340, 362-396. -/
inductive RPrior
  | gaussian (mu sigma : ℝ)
  | bounds (lo hi : ℝ)
  | jeffreys (lo hi : ℝ)
  | modJeffreys (lo hi knee : ℝ)

variable (O : PostOps)

/-- `-0.5 * ((x - self.mu) / self.sigma)**2 - 0.5*np.log((self.sigma**2)*2.*np.pi)`, /repo/radvel/prior.py 41. -/
noncomputable def PostOps.gaussian (mu sigma x : ℝ) : ℝ :=
  O.sub (O.mul (-0.5) (O.pow2 (O.div (O.sub x mu) sigma))) (O.mul 0.5 (O.log (O.mul (O.mul (O.pow2 sigma) 2) (O.lit Real.pi))))

/-- `np.log(1./np.log(hi/lo)) - np.log(x)`, /repo/radvel/prior.py 333, 340 and 387, 396. -/
def PostOps.logUniform (lo hi x : ℝ) : ℝ := O.sub (O.log (O.div 1 (O.log (O.div hi lo)))) (O.log x)

open Classical in
/-- The value of a prior, /repo/radvel/prior.py 39-41, 217-226, 335-340 and 391-396; comparisons of doubles are exact, a change of sign too. -/
noncomputable def PostOps.prior : RPrior → ℝ → Option ℝ
  | .gaussian mu sigma, x => some (O.gaussian mu sigma x)
  | .bounds lo hi, x => if x ≤ lo ∨ x ≥ hi then none else some (-O.log (O.sub hi lo))
  | .jeffreys lo hi, x => if x < lo ∨ x > hi then none else some (O.logUniform lo hi x)
  | .modJeffreys lo hi knee, x => if x > hi ∨ x < lo then none else some (O.logUniform (O.sub lo knee) (O.sub hi knee) (O.sub x knee))

/-- The loop over the priors, /repo/radvel/posterior.py 45-47: `-inf` stays `-inf`. -/
noncomputable def PostOps.priors (l : List (RPrior × ℝ)) : Option ℝ :=
  l.foldl (fun acc p => acc.bind fun a => (O.prior p.1 p.2).map (O.add a)) (some 0)

/-- `Posterior.logprob` for a composite likelihood, /repo/radvel/posterior.py 38-50, /repo/radvel/likelihood.py 287-294; `likes` are the values of the likelihoods of the instruments. -/
noncomputable def PostOps.posterior (l : List (RPrior × ℝ)) (likes : List ℝ) : Option ℝ :=
  (O.priors l).map fun a => O.add a (likes.foldl O.add 0)

end Radvel
