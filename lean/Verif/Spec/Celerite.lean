import Verif.Model.Celerite
import Verif.Spec.GP

/-!
What the package `celerite` is meant to do, and the covariances of the data (specification side of C176).
-/

namespace Radvel
open Real Matrix

/-- The covariance of the values of the process at times `a` and `b`, as documented (/repo/radvel/gp.py 376-378). -/
noncomputable def celCov (v : CelVals) (a b : ℝ) : ℝ := v.B / (2 + v.C) * exp (-|a - b| / v.L) * (cos (2 * π * |a - b| / v.Prot) + (1 + v.C))

/-- The covariance matrix of the data: kernel plus measurement error and jitter on the diagonal. -/
noncomputable def celDataCov (v : CelVals) (obs : List Obs) : Matrix (Fin obs.length) (Fin obs.length) ℝ :=
  fun i j => celCov v obs[i].t obs[j].t + if i = j then obs[i].err ^ 2 + v.jit ^ 2 else 0

/-- The residuals of the data from the model. -/
noncomputable def celRes (v : CelVals) (M : ℝ → ℝ) (obs : List Obs) : Fin obs.length → ℝ := fun i => obs[i].y - v.gamma - M obs[i].t

/-- The matrix that the package stands for, given its coefficients, times and variances. -/
noncomputable def pkgCov (c : CeleriteCoeffs) (ts vs : List ℝ) : Matrix (Fin ts.length) (Fin ts.length) ℝ :=
  fun i j => c.term |ts[i] - ts[j]| + if i = j then vs.getD i 0 else 0

/-- A list as a vector. -/
def listVec (n : Nat) (r : List ℝ) : Fin n → ℝ := fun i => r.getD i 0

/-- The package does what it documents, for times in increasing order: it factors the matrix if that is positive definite and raises `LinAlgError` if not, solves with it, and predicts the
conditional means and variances. -/
structure IsCelerite (pkg : CelPkg) : Prop where
  compute : ∀ c ts vs, ts.Pairwise (· ≤ ·) → vs.length = ts.length → (pkgCov c ts vs).PosDef →
    ∃ s, pkg.compute c ts vs = some s ∧ s.logDet = log (pkgCov c ts vs).det ∧
      ∀ r : List ℝ, r.length = ts.length → s.dotSolve r = listVec ts.length r ⬝ᵥ ((pkgCov c ts vs)⁻¹ *ᵥ listVec ts.length r)
  fails : ∀ c ts vs, ts.Pairwise (· ≤ ·) → vs.length = ts.length → ¬ (pkgCov c ts vs).PosDef → pkg.compute c ts vs = none
  predict : ∀ sigma c ts es r xs, ts.Pairwise (· ≤ ·) → es.length = ts.length → r.length = ts.length →
    let K := pkgCov c ts (es.map (fun e => e ^ 2 + sigma ^ 2))
    K.PosDef → pkg.predict sigma c ts es r xs =
      some (xs.map (fun x => (fun j : Fin ts.length => c.term |x - ts[j]|) ⬝ᵥ (K⁻¹ *ᵥ listVec ts.length r)),
        xs.map (fun x => c.term 0 - (fun j : Fin ts.length => c.term |x - ts[j]|) ⬝ᵥ (K⁻¹ *ᵥ (fun j : Fin ts.length => c.term |x - ts[j]|))))

/-- The conditional mean of the process at time `x` given the data. -/
noncomputable def celMean (v : CelVals) (M : ℝ → ℝ) (obs : List Obs) (x : ℝ) : ℝ :=
  (fun j : Fin obs.length => celCov v x obs[j].t) ⬝ᵥ ((celDataCov v obs)⁻¹ *ᵥ celRes v M obs)

/-- The conditional variance of the process at time `x` given the data. -/
noncomputable def celVar (v : CelVals) (obs : List Obs) (x : ℝ) : ℝ :=
  celCov v x x - (fun j : Fin obs.length => celCov v x obs[j].t) ⬝ᵥ ((celDataCov v obs)⁻¹ *ᵥ (fun j : Fin obs.length => celCov v x obs[j].t))

/-- Hyperparameters for which the documented function is a covariance. -/
structure CelRegular (v : CelVals) : Prop where
  B : 0 ≤ v.B
  C : -1 ≤ v.C
  L : 0 < v.L

end Radvel
