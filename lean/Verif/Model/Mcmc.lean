import Verif.Model.Convergence
import Verif.Model.Numbers

/-!
# `radvel/mcmc.py` 18-29, 104-173, 176-489: the MCMC driver

`emcee`'s sampler is modelled by what the driver uses: it stores positions, log-probabilities and acceptance counts of every step; one step ("move") is an arbitrary function of the
ensemble, of how many moves that ensemble has made before (the random numbers) and of the position. Screen output, timing, process pools and `KeyboardInterrupt` are left out: running in
parallel returns the same samplers as running in serial.
-/

namespace Radvel
open Classical

/-- Positions of the walkers: `[walker][parameter]`. Models /repo/radvel/mcmc.py 329-344. -/
abbrev Pos := List (List ℝ)

/-- The result of one emcee step: new positions, their log-probabilities, and which walkers moved. Used for /repo/radvel/mcmc.py 176-186. -/
structure Move where
  pos : Pos
  logProb : List Fl
  accepted : List Bool

/-- `emcee.EnsembleSampler` with its backend: `get_chain()` as `[step][walker][parameter]`, `get_log_prob()` as `[step][walker]`, `backend.accepted`; `count` is the number of moves ever made
(the state of the random number generator; not reset). Used for /repo/radvel/mcmc.py 325-344, 438. -/
structure Sampler where
  chain : List Pos
  logProb : List (List Fl)
  accepted : List Nat
  count : Nat

/-- Storing one step in the backend (`store=True`). Used for /repo/radvel/mcmc.py 176-186. -/
def Sampler.store (s : Sampler) (m : Move) : Sampler :=
  { chain := s.chain ++ [m.pos], logProb := s.logProb ++ [m.logProb]
    accepted := List.zipWith (fun (a : Nat) (b : Bool) => if b then a + 1 else a) s.accepted m.accepted, count := s.count + 1 }

/-- `sampler.run_mcmc(p, n)` / `sampler.sample(p, iterations=n)`: `n` moves from `p`, every one stored. Models /repo/radvel/mcmc.py 176-186. -/
def Sampler.advance (moves : Nat → Pos → Move) (s : Sampler) (p : Pos) : Nat → Sampler
  | 0 => s
  | n + 1 => let m := moves s.count p; Sampler.advance moves (s.store m) m.pos n

/-- `sampler.reset()`, /repo/radvel/mcmc.py 438. -/
def Sampler.reset (s : Sampler) : Sampler := { s with chain := [], logProb := [], accepted := s.accepted.map fun _ => 0 }

/-- The HDF5 file written by `save`, /repo/radvel/mcmc.py 396-431: datasets `<i>_chain`, `<i>_log_prob`, `<i>_accepted`, and six more. Simplification: the three numbered families are
separate dictionaries from numbers instead of one dictionary from strings; shapes of arrays with no step are not kept. -/
structure H5 where
  chain : Dict Nat (List Pos)
  logProb : Dict Nat (List (List Fl))
  accepted : Dict Nat (List Nat)
  crit : Option (Fl × Fl × Fl × Fl)
  autosample : Option (List Nat)
  automin : Option (List Fl)
  automean : Option (List Fl)
  automax : Option (List Fl)
  burned : Option Nat

/-- A new file. Models /repo/radvel/mcmc.py 396-431. -/
def H5.empty : H5 := ⟨[], [], [], none, none, none, none, none, none⟩

/-- 1 if the dataset exists. Used for /repo/radvel/mcmc.py 253. -/
def one? {α : Type} (o : Option α) : Nat := if o.isSome then 1 else 0

/-- `len(h5p.keys())`. Models /repo/radvel/mcmc.py 253. -/
def H5.numKeys (f : H5) : Nat :=
  f.chain.length + f.logProb.length + f.accepted.length + one? f.crit + one? f.autosample + one? f.automin + one? f.automean + one? f.automax + one? f.burned

/-- The arguments of `mcmc`, /repo/radvel/mcmc.py 189-191, with `nwalkers` already adjusted (287-290) and `ndim` the number of free parameters. -/
structure McConfig where
  ndim : Nat
  nwalkers : Nat
  nrun : Nat
  ensembles : Nat
  checkinterval : Nat
  th : Thresholds
  burnAfactor : Fl
  burnGR : Fl
  minsteps : ℝ
  minpercent : ℝ
  thin : Nat

/-- The adjustment of the number of walkers, /repo/radvel/mcmc.py 287-290. -/
def adjustWalkers (nwalkers ndim : Nat) : Nat := if nwalkers < 2 * ndim then 2 * ndim else nwalkers

/-- Ghost record of one round, read by no code: were the statistics computed (or was it too early), did they pass, was burn-in over when the samples were taken. Models /repo/radvel/mcmc.py 104-167. -/
structure Check where
  computed : Bool
  passed : Bool
  post : Bool

/-- `statevars`, /repo/radvel/mcmc.py 18-28 and all attributes set later. `table` holds `statevars.chains` and `statevars.lnprob` (`none`: the attributes do not exist).
`trace` and `checked` (the samplers at the last check) are ghost fields. -/
structure McState where
  samplers : List Sampler
  inits : List Pos
  started : Bool
  burnComplete : Bool
  nburn : Nat
  ncomplete : Nat
  mixcount : Nat
  ismixed : Bool
  oac : Option (List Fl)
  minafactor : Fl
  maxarchange : Fl
  mintz : Fl
  maxgr : Fl
  table : Option (List Ens × List (List (List Fl)))
  autosamples : List Nat
  automin : List Fl
  automean : List Fl
  automax : List Fl
  file : Option H5
  trace : List Check
  checked : List Sampler

/-- The start position of a block, /repo/radvel/mcmc.py 370-374. -/
def startPos (started : Bool) (s : Sampler) (init : Pos) : Pos :=
  if s.chain.length ≤ 1 ∨ started = false then init else s.chain.getLastD init

/-- One block of one ensemble, /repo/radvel/mcmc.py 369-377 and `_domcmc` 176-186: one stored step from `p1`, then `checkinterval - 1` stored steps, again from `p1`. -/
def block (ci : Nat) (moves : Nat → Pos → Move) (started : Bool) (s : Sampler) (init : Pos) : Sampler :=
  let p1 := startPos started s init
  ((s.advance moves p1 1).advance moves p1 (ci - 1))

/-- The blocks of all ensembles, /repo/radvel/mcmc.py 369-388; `statevars.proceed_started` is set by the first of them. -/
def blocks (ci : Nat) (moves : Nat → Nat → Pos → Move) (started : Bool) : Nat → List Sampler → List Pos → List Sampler
  | _, [], _ => []
  | i, s :: ss, inits => block ci (moves i) started s (inits.headD []) :: blocks ci moves true (i + 1) ss inits.tail

/-- `sampler.get_chain().T`, /repo/radvel/mcmc.py 130. -/
def chainT (nd nw : Nat) (s : Sampler) : Ens :=
  (List.range nd).map fun d => (List.range nw).map fun w => s.chain.map fun p => (p.getD w []).getD d 0

/-- `sampler.get_log_prob().T`, /repo/radvel/mcmc.py 131. -/
def logProbT (nw : Nat) (s : Sampler) : List (List Fl) := (List.range nw).map fun w => s.logProb.map fun l => l.getD w .nan

/-- The statistics part of `convergence_check`, /repo/radvel/mcmc.py 148-167. -/
noncomputable def checkStats (itime : List Ens → List Fl) (cfg : McConfig) (st : McState) (chains : List Ens) : Except PyErr McState := do
  let out ← convergenceCalculate itime chains st.oac cfg.th
  let mintz ← Fl.pyMin out.tz
  let maxgr ← Fl.pyMax out.gelmanrubin
  let minaf ← Fl.npMin out.afactor
  let maxar ← Fl.npMax out.archange
  let oacMin ← Fl.npMin out.autocorrelation
  let oacMax ← Fl.npMax out.autocorrelation
  let st := { st with ismixed := out.ismixed, mintz := mintz, maxgr := maxgr, minafactor := minaf, maxarchange := maxar, oac := some out.autocorrelation }
  let st := if st.burnComplete then
      { st with autosamples := st.autosamples ++ [chains.length * (((chains.getD 0 []).getD 0 []).getD 0 []).length]
                automean := st.automean ++ [Fl.npMean out.autocorrelation], automin := st.automin ++ [oacMin], automax := st.automax ++ [oacMax] }
    else st
  return { st with mixcount := if out.ismixed then st.mixcount + 1 else 0, trace := st.trace ++ [⟨true, out.ismixed, st.burnComplete⟩] }

/-- `convergence_check`, /repo/radvel/mcmc.py 104-167. `sampler` after the loop is the last sampler (`NameError` if there is none: here `unboundLocalError`); acceptance rates, speed and screen
output are left out. -/
noncomputable def convergenceCheck (itime : List Ens → List Fl) (cfg : McConfig) (st : McState) : Except PyErr McState :=
  let chains := st.samplers.map (chainT cfg.ndim cfg.nwalkers)
  let lnprob := st.samplers.map (logProbT cfg.nwalkers)
  let ncomplete := st.nburn + (st.samplers.map fun s => s.chain.length * cfg.nwalkers).sum
  let totsteps := cfg.nrun * cfg.nwalkers * cfg.ensembles
  let st := { st with ncomplete := ncomplete, table := some (chains, lnprob), checked := st.samplers }
  if totsteps = 0 then .error .zeroDivisionError
  else match st.samplers.getLast? with
    | none => .error .unboundLocalError
    | some last =>
      if (ncomplete : ℝ) / totsteps * 100 < cfg.minpercent ∧ ((last.chain.length * cfg.nwalkers : Nat) : ℝ) ≤ cfg.minsteps * cfg.nwalkers then
        .ok { st with ismixed := false, minafactor := .fin (-1), maxarchange := .pos, maxgr := .pos, mintz := .fin (-1), trace := st.trace ++ [⟨false, false, st.burnComplete⟩] }
      else checkStats itime cfg st chains

/-- Saving one sampler, /repo/radvel/mcmc.py 398-431: existing datasets are deleted and written again. -/
def saveOne (st : McState) (f : H5) (i : Nat) (s : Sampler) : H5 :=
  { chain := f.chain.set i s.chain, logProb := f.logProb.set i s.logProb, accepted := f.accepted.set i s.accepted
    crit := some (st.minafactor, st.maxarchange, st.mintz, st.maxgr), autosample := some st.autosamples, automin := some st.automin, automean := some st.automean
    automax := some st.automax, burned := some (if st.burnComplete then st.nburn else 0) }

/-- The saving loop, /repo/radvel/mcmc.py 396-431. -/
def saveAll (st : McState) : Nat → List Sampler → H5 → H5
  | _, [], f => f
  | i, s :: ss, f => saveAll st (i + 1) ss (saveOne st f i s)

/-- End of burn-in, /repo/radvel/mcmc.py 435-446. -/
noncomputable def burnStep (cfg : McConfig) (st : McState) : McState :=
  if st.burnComplete = false ∧ (st.maxgr.leq cfg.burnGR ∨ cfg.burnAfactor.leq st.minafactor) then
    { st with inits := List.zipWith (fun s i => s.chain.getLastD i) st.samplers st.inits, samplers := st.samplers.map Sampler.reset, nburn := st.ncomplete, burnComplete := true }
  else st

/-- One pass through the main loop without the final `break`, /repo/radvel/mcmc.py 367-446. -/
noncomputable def mcmcRound (itime : List Ens → List Fl) (moves : Nat → Nat → Pos → Move) (cfg : McConfig) (st : McState) : Except PyErr McState := do
  let st := { st with samplers := blocks cfg.checkinterval moves st.started 0 st.samplers st.inits, started := true }
  let st ← convergenceCheck itime cfg st
  let st := { st with file := st.file.map (saveAll st 0 st.samplers) }
  return burnStep cfg st

/-- The main loop, /repo/radvel/mcmc.py 366-458: at most `n` rounds; the flag tells that it was left by `break`. -/
noncomputable def mcmcLoop (itime : List Ens → List Fl) (moves : Nat → Nat → Pos → Move) (cfg : McConfig) : Nat → McState → Except PyErr (McState × Bool)
  | 0, st => .ok (st, false)
  | n + 1, st =>
    match mcmcRound itime moves cfg st with
    | .error e => .error e
    | .ok st => if 2 ≤ st.mixcount then .ok (st, true) else mcmcLoop itime moves cfg n st

/-- `num_run = int(np.round(nrun / (checkinterval - 1)))`, /repo/radvel/mcmc.py 346, and the number of passes of `range(num_run)`. -/
noncomputable def numRun (nrun ci : Nat) : Except PyErr Nat :=
  if ci = 1 then .error .zeroDivisionError else .ok (roundEven ((nrun : ℝ) / ((ci : ℝ) - 1))).toNat

/-- The state after `statevars.reset()` and the set-up of a new run, /repo/radvel/mcmc.py 225, 325-363; `table` is what an earlier run has left behind: `reset` does not delete it.
Simplification: `minafactor` and `maxarchange` are not set (360-361 write `minAfactor` and `maxArchange`) and would also be left behind; no code reads them before the first check has set them. -/
def startFresh (p0 : List Pos) (nw : Nat) (file : Option H5) (prev : Option (List Ens × List (List (List Fl)))) : McState :=
  { samplers := p0.map fun _ => ⟨[], [], List.replicate nw 0, 0⟩, inits := p0, started := false, burnComplete := false, nburn := 0, ncomplete := 0, mixcount := 0, ismixed := false
    oac := none, minafactor := .fin (-1), maxarchange := .pos, mintz := .fin (-1), maxgr := .pos, table := prev, autosamples := [], automin := [], automean := [], automax := []
    file := file, trace := [], checked := [] }

/-- Reading the datasets of ensemble `i`, /repo/radvel/mcmc.py 253-259. -/
def loadOne (f : H5) (i : Nat) : Except PyErr Sampler := do
  let c ← f.chain.get i
  let l ← f.logProb.get i
  let a ← f.accepted.get i
  return ⟨c, l, a, 0⟩

/-- A dataset of the file, raising `KeyError`. Used for /repo/radvel/mcmc.py 240-259. -/
def H5.need {α : Type} (o : Option α) : Except PyErr α :=
  match o with
  | some x => .ok x
  | none => .error .keyError

/-- Continuing a saved run, /repo/radvel/mcmc.py 234-259, 292-296, 325-363. The loaded samplers start with fresh random numbers (`count = 0`).
`mintz` and `maxgr` are overwritten at 362-363. -/
def startProceed (cfg : McConfig) (f : H5) (file : Option H5) (prev : Option (List Ens × List (List (List Fl)))) : Except PyErr McState := do
  let preburned ← H5.need f.burned
  let crit ← H5.need f.crit
  let autosamples ← H5.need f.autosample
  let automin ← H5.need f.automin
  let automean ← H5.need f.automean
  let automax ← H5.need f.automax
  let pre ← (List.range ((f.numKeys - 6) / 3)).mapM (loadOne f)
  if f.numKeys ≠ 3 * cfg.ensembles + 6 then .error .valueError
  else do
  let c0 ← f.chain.get 0
  if ((c0.headD []).headD []).length ≠ cfg.ndim ∨ (c0.headD []).length ≠ cfg.nwalkers then .error .valueError
  else
    return { startFresh (pre.map fun s => s.chain.getLastD []) cfg.nwalkers file prev with
      samplers := pre, burnComplete := decide (preburned ≠ 0), nburn := preburned, ncomplete := preburned, minafactor := crit.1, maxarchange := crit.2.1
      autosamples := autosamples, automin := automin, automean := automean, automax := automax }

/-- The columns of the returned table (one list per parameter) and `lnprobability`. Models /repo/radvel/mcmc.py 476-486. -/
structure ChainFrame where
  cols : List (List ℝ)
  ln : List Fl

/-- `np.dstack(statevars.chains).reshape(..).transpose()` and `np.hstack(statevars.lnprob).reshape(..)`, /repo/radvel/mcmc.py 476-481: sizes are those of the first ensemble. -/
def buildFrame (chains : List Ens) (lnprob : List (List (List Fl))) : ChainFrame :=
  let nd := (chains.headD []).length
  let nw := ((chains.headD []).headD []).length
  { cols := (List.range nd).map fun d => (List.range nw).flatMap fun w => chains.flatMap fun e => (e.getD d []).getD w []
    ln := (List.range nw).flatMap fun w => lnprob.flatMap fun l => l.getD w [] }

/-- `l[::thin]`. Used for /repo/radvel/mcmc.py 482. -/
def everyNth {α : Type} (thin : Nat) (l : List α) : List α := (List.range l.length).filterMap fun i => if i % thin = 0 then l[i]? else none

/-- The end of `mcmc`, /repo/radvel/mcmc.py 476-482: `AttributeError` if no chains exist; the number of columns must be the number of names. -/
def finish (cfg : McConfig) (st : McState) : Except PyErr ChainFrame :=
  match st.table with
  | none => .error .attributeError
  | some (chains, lnprob) =>
    let f := buildFrame chains lnprob
    if f.cols.length ≠ cfg.ndim then .error .valueError
    else if cfg.thin = 0 then .error .valueError
    else .ok ⟨f.cols.map (everyNth cfg.thin), everyNth cfg.thin f.ln⟩

/-- `mcmc` from a prepared state, /repo/radvel/mcmc.py 346-486. -/
noncomputable def mcmcRun (itime : List Ens → List Fl) (moves : Nat → Nat → Pos → Move) (cfg : McConfig) (st : McState) : Except PyErr (ChainFrame × McState × Bool) := do
  let n ← numRun cfg.nrun cfg.checkinterval
  let r ← mcmcLoop itime moves cfg n st
  let f ← finish cfg r.1
  return (f, r.1, r.2)

end Radvel
