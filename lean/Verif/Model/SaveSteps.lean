import Verif.Model.Mcmc

/-!
# `radvel/mcmc.py` 396-431 one statement at a time: what the file holds when a run is stopped while it saves

`KeyboardInterrupt` (488) can arrive between any two statements. Simplification: every operation on the file that has been executed is in the file (h5py closes it properly);
deletions and creations are not themselves interrupted.
-/

namespace Radvel
open Classical

/-- The nine `if key in h5f.keys(): del h5f[key]` for ensemble `i`, /repo/radvel/mcmc.py 401-418. -/
def delSteps (i : Nat) : List (H5 → H5) :=
  [fun f => { f with chain := f.chain.erase i }, fun f => { f with logProb := f.logProb.erase i }, fun f => { f with accepted := f.accepted.erase i },
   fun f => { f with crit := none }, fun f => { f with autosample := none }, fun f => { f with automin := none }, fun f => { f with automean := none }, fun f => { f with automax := none },
   fun f => { f with burned := none }]

/-- The nine `h5f.create_dataset(..)` for ensemble `i`, /repo/radvel/mcmc.py 419-431. -/
def writeSteps (st : McState) (i : Nat) (s : Sampler) : List (H5 → H5) :=
  [fun f => { f with chain := f.chain.set i s.chain }, fun f => { f with logProb := f.logProb.set i s.logProb }, fun f => { f with accepted := f.accepted.set i s.accepted },
   fun f => { f with crit := some (st.minafactor, st.maxarchange, st.mintz, st.maxgr) }, fun f => { f with autosample := some st.autosamples }, fun f => { f with automin := some st.automin },
   fun f => { f with automean := some st.automean }, fun f => { f with automax := some st.automax }, fun f => { f with burned := some (if st.burnComplete then st.nburn else 0) }]

/-- All operations of the saving loop, /repo/radvel/mcmc.py 396-431. -/
def saveSteps (st : McState) : Nat → List Sampler → List (H5 → H5)
  | _, [] => []
  | i, s :: ss => delSteps i ++ writeSteps st i s ++ saveSteps st (i + 1) ss

/-- Executing operations in order. Used for /repo/radvel/mcmc.py 396-431. -/
def runSteps (ops : List (H5 → H5)) (f : H5) : H5 := ops.foldl (fun f op => op f) f

/-- The file when a round of the main loop is stopped after `k` operations of its save, /repo/radvel/mcmc.py 367-431 and 488-489. -/
noncomputable def stoppedFile (itime : List Ens → List Fl) (moves : Nat → Nat → Pos → Move) (cfg : McConfig) (k : Nat) (st : McState) : Except PyErr (Option H5) := do
  let st := { st with samplers := blocks cfg.checkinterval moves st.started 0 st.samplers st.inits, started := true }
  let st ← convergenceCheck itime cfg st
  return st.file.map (runSteps ((saveSteps st 0 st.samplers).take k))

end Radvel
