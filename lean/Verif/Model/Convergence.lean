import Verif.Py.FloatOps
import Verif.Spec.Stats

/-!
# `radvel/mcmc.py` 492-611: `convergence_calculate`

`emcee.autocorr.integrated_time` is an arbitrary function of the chains. Finite doubles are exact reals.
-/

namespace Radvel
open Classical

/-- The samples of one ensemble as `sampler.get_chain().T`: `[parameter][walker][step]`, /repo/radvel/mcmc.py 130. -/
abbrev Ens := List (List (List ℝ))

/-- What `convergence_calculate` returns, /repo/radvel/mcmc.py 611. -/
structure ConvOut where
  ismixed : Bool
  afactor : List Fl
  archange : List Fl
  autocorrelation : List Fl
  gelmanrubin : List Fl
  tz : List Fl

/-- The thresholds passed to `convergence_calculate`, /repo/radvel/mcmc.py 492. -/
structure Thresholds where
  minAfactor : Fl
  maxArchange : Fl
  minTz : Fl
  maxGR : Fl

/-- The chains of one parameter, /repo/radvel/mcmc.py 545-548: in every ensemble the samples of all walkers one after the other (row-major `reshape`), and the
ensembles are the chains. -/
def parChains (chains : List Ens) (p : Nat) : List (List ℝ) := chains.map fun ens => (ens.getD p []).flatten

/-- `withinChainVariances` of one parameter, /repo/radvel/mcmc.py 562-564 (`np.var` along the steps, `np.mean` over the chains). -/
noncomputable def within (cs : List (List ℝ)) : ℝ := mean (cs.map pvar)

/-- `np.var(means, axis=1)` of one parameter, /repo/radvel/mcmc.py 567-568. -/
noncomputable def varMeans (cs : List (List ℝ)) : ℝ := pvar (cs.map mean)

/-- `varEstimate` of one parameter, /repo/radvel/mcmc.py 569-572; `n` is `nsteps`. -/
noncomputable def varEstimate (n : ℝ) (cs : List (List ℝ)) : ℝ := (1 - 1 / n) * within cs + 1 / n * (varMeans cs * n)

/-- `bz` of one parameter, /repo/radvel/mcmc.py 577-578; `m` is `nchains`. -/
noncomputable def bzOf (n m : ℝ) (cs : List (List ℝ)) : ℝ := varMeans cs / (m - 1) * n

/-- `vbz` of one parameter, /repo/radvel/mcmc.py 582. -/
noncomputable def vbzOf (n m : ℝ) (cs : List (List ℝ)) : Fl := .quot (varEstimate n cs) (bzOf n m cs)

/-- `tz`, /repo/radvel/mcmc.py 583-588: only the parameters with `vbz < 1` are kept; `[-1]` if none is left or there is a single chain. -/
noncomputable def tzOf (n m : ℝ) (pars : List (List (List ℝ))) : List Fl :=
  if m ≠ 1 then
    let kept := (pars.map (vbzOf n m)).filter (fun v => decide (v.lt (.fin 1)))
    let tz := kept.map (Fl.scale (m * n))
    if tz = [] then [.fin (-1)] else tz
  else [.fin (-1)]

/-- `gelmanrubin` of one parameter, /repo/radvel/mcmc.py 591. -/
noncomputable def grOf (n : ℝ) (cs : List (List ℝ)) : Fl := (Fl.quot (varEstimate n cs) (within cs)).sqrt

/-- `archange`, /repo/radvel/mcmc.py 601-605; `old = none` is the number 0 that `StateVars.__init__` stores (broadcast). -/
noncomputable def archangeOf (ac : List Fl) (old : Option (List Fl)) : List Fl :=
  match old with
  | none => ac.map fun a => (a.sub (.fin 0)).abs.div (.fin 0)
  | some os => List.zipWith (fun a o => (a.sub o).abs.div o) ac os

/-- `convergence_calculate`, /repo/radvel/mcmc.py 492-611. The arrays are assumed rectangular (`np.dstack` raises otherwise), so the first ensemble gives the sizes.
`itime` is `emcee.autocorr.integrated_time(.., tol=0)`, one number per parameter. The unused `varz` is left out. -/
noncomputable def convergenceCalculate (itime : List Ens → List Fl) (chains : List Ens) (old : Option (List Fl)) (th : Thresholds) : Except PyErr ConvOut :=
  match chains with
  | [] => .error .valueError
  | e0 :: _ =>
    let npars := e0.length
    let nsteps := (e0.getD 0 []).flatten.length
    if ¬ 1 < nsteps then .error .assertionError
    else do
      let pars := (List.range npars).map (parChains chains)
      let m : ℝ := chains.length
      let tz := tzOf nsteps m pars
      let minTz := if m ≠ 1 then th.minTz else .neg
      let gr := pars.map (grOf nsteps)
      let ac := itime chains
      let len : ℝ := chains.length * ((e0.getD 0 []).getD 0 []).length
      let afactor := ac.map (Fl.div (.fin len))
      let archange := archangeOf ac old
      let mintz ← Fl.pyMin tz
      let maxgr ← Fl.pyMax gr
      let minaf ← Fl.npMin afactor
      let maxar ← Fl.npMax archange
      return { ismixed := decide (minTz.lt mintz ∧ maxgr.lt th.maxGR ∧ th.minAfactor.lt minaf ∧ maxar.lt th.maxArchange)
               afactor := afactor, archange := archange, autocorrelation := ac, gelmanrubin := gr, tz := tz }

end Radvel
