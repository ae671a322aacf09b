import Verif.Model.GP

/-!
# `radvel/likelihood.py` 591-651: the likelihood and the predictions of `CeleriteLikelihood`

Exact reals. The package `celerite` is not modelled: it is a parameter, `CelPkg`, and what it is meant to do is in `Verif.Spec.Celerite`. Simplifications: the values of the hyperparameters
after `update_kernel_params` (see `GPLike.update`), of gamma and of the jitter are arguments, the model is a function with values in the reals, and divisions by zero are not represented.
-/

namespace Radvel
open Real

/-- A `CholeskySolver` after `compute`: `dot_solve` and `log_determinant`, called in /repo/radvel/likelihood.py 599. -/
structure CelSolver where
  dotSolve : List ℝ → ℝ
  logDet : ℝ

/-- What is called of the package: `CholeskySolver.compute` (/repo/radvel/gp.py 482-489; coefficients, times, variances; `none`: `LinAlgError`) and `GP(kernel)`, `compute` and `predict`
(/repo/radvel/likelihood.py 645-647; jitter, coefficients, times, errors, data, times of the prediction; `none`: `LinAlgError`). -/
structure CelPkg where
  compute : CeleriteCoeffs → List ℝ → List ℝ → Option CelSolver
  predict : ℝ → CeleriteCoeffs → List ℝ → List ℝ → List ℝ → List ℝ → Option (List ℝ × List ℝ)

/-- The values of the parameters during a call. Used for /repo/radvel/likelihood.py 591-651. -/
structure CelVals where
  B : ℝ
  C : ℝ
  L : ℝ
  Prot : ℝ
  gamma : ℝ
  jit : ℝ

/-- `_resids`, /repo/radvel/likelihood.py 462-467. -/
noncomputable def CelLike.resids (c : CelLike) (v : CelVals) (M : ℝ → ℝ) : List ℝ := c.obs.map (fun o => o.y - v.gamma - M o.t)

/-- `errorbars`, /repo/radvel/likelihood.py 384-391. -/
noncomputable def CelLike.errorbars (c : CelLike) (v : CelVals) : List ℝ := c.obs.map (fun o => √(o.err ^ 2 + v.jit ^ 2))

/-- `CeleriteLikelihood.logprob`, /repo/radvel/likelihood.py 591-605 with `compute_covmatrix`, gp.py 467-490. -/
noncomputable def CelLike.logprob (pkg : CelPkg) (c : CelLike) (v : CelVals) (M : ℝ → ℝ) : Fl :=
  match pkg.compute (celeriteCoeffs v.B v.C v.L v.Prot) c.kernelX ((c.errorbars v).map (· ^ 2)) with
  | none => .neg
  | some solver => .fin (-0.5 * (solver.dotSolve (c.resids v M) + solver.logDet + (c.obs.length : ℝ) * log (2 * π)))

open Classical in
/-- The number the package makes of a parameter `np.log(x)`, its exponential; nan if `x` is negative. Used for /repo/radvel/likelihood.py 629-643. -/
noncomputable def expLog (x : ℝ) : Option ℝ := if x < 0 then none else some x

/-- Jitter and coefficients of the kernel built in /repo/radvel/likelihood.py 622-643; `none`: one of them is nan. -/
noncomputable def CelLike.predictKernel (v : CelVals) : Option (ℝ × CeleriteCoeffs) := do
  let sigma ← expLog v.jit
  let aReal ← expLog (v.B * (1 + v.C) / (2 + v.C))
  let cReal ← expLog (1 / v.L)
  let aComp ← expLog (v.B / (2 + v.C))
  let cComp ← expLog (1 / v.L)
  let dComp ← expLog (2 * π / v.Prot)
  return (sigma, { aReal := aReal, cReal := cReal, aComp := aComp, bComp := 0, cComp := cComp, dComp := dComp })

/-- How a call of `predict` ends: a parameter of the kernel is nan, `LinAlgError`, or the means and standard deviations. Models /repo/radvel/likelihood.py 607-651. -/
inductive CelPrediction
  | nanKernel
  | linAlgError
  | ok (mu : List ℝ) (stdev : List (Option ℝ))

/-- `CeleriteLikelihood.predict(xpred)`, /repo/radvel/likelihood.py 607-651. -/
noncomputable def CelLike.predict (pkg : CelPkg) (c : CelLike) (v : CelVals) (M : ℝ → ℝ) (xpred : List ℝ) : CelPrediction :=
  match CelLike.predictKernel v with
  | none => .nanKernel
  | some (sigma, kernel) =>
    match pkg.predict sigma kernel (c.obs.map Obs.t) (c.obs.map Obs.err) (c.resids v M) xpred with
    | none => .linAlgError
    | some (mu, var) => .ok mu (var.map npSqrt)

end Radvel
