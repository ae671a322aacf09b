import Verif.Model.Pipeline
import Verif.Spec.Status
import Verif.Spec.Driver

/-! Specification for the pipeline: which commands may be given, and which worlds can be reached. -/

namespace Radvel

/-- A common start of paths that can be stored in the status file. -/
structure PlainPrefix (pre : Text) : Prop where
  start : ∃ c t, pre = c :: t ∧ isSpace c = false
  oneLine : '\n' ∉ pre ∧ '\r' ∉ pre

/-- The numbers are texts on one line without spaces around them. -/
structure McmcNumbers.Plain (n : McmcNumbers) : Prop where
  nwalkers : PlainValue n.nwalkers
  nensembles : PlainValue n.nensembles
  maxsteps : PlainValue n.maxsteps
  nsteps : PlainValue n.nsteps
  nburn : PlainValue n.nburn
  minafactor : PlainValue n.minafactor
  maxarchange : PlainValue n.maxarchange
  mintz : PlainValue n.mintz
  maxgr : PlainValue n.maxgr

/-- What the command saves can be stored in the status file (see C79). -/
def Command.Plain : Command → Prop
  | .mcmc num => num.Plain
  | .ns kwargs => ∀ o ∈ kwargs, PlainOption (lower o.1) ∧ PlainValue o.2
  | .ic text => PlainValue text
  | _ => True

/-- The worlds that any sequence of commands can lead to, whichever computations fail, starting without a status file; with `edits`, output files may be changed or removed between commands. -/
inductive Reachable (pre : Text) (edits : Prop) : World → Prop
  | start (files : Dict Text Content) (clock : Nat) : Reachable pre edits { stat := none, files := files, clock := clock, log := [] }
  | step (w : World) (c : Command) (o : Oracle) : Reachable pre edits w → c.Plain → Reachable pre edits (runCommand pre o c w).2
  | edit (w : World) (files : Dict Text Content) : edits → Reachable pre edits w → Reachable pre edits { w with files := files }

/-- Something has been fitted. -/
def Fitted (log : List Event) : Prop := ∃ n, Event.fit n ∈ log

/-- This sampler has been completed. -/
def Sampled (sampler : Text) (log : List Event) : Prop := (sampler = "mcmc".toList ∧ ∃ n, Event.mcmc n ∈ log) ∨ (sampler = "ns".toList ∧ ∃ n, Event.ns n ∈ log)

/-- Parameters have been derived. -/
def Derived (log : List Event) : Prop := ∃ s, Event.derive s ∈ log

/-- The keywords of the nested sampler do not have the names of the status's own entries, and the numbers of walkers and ensembles are integers. -/
def Command.Clean : Command → Prop
  | .mcmc num => (∃ n, IntText num.nwalkers n) ∧ ∃ n, IntText num.nensembles n
  | .ns kwargs => ∀ o ∈ kwargs, lower o.1 ∉ ["run".toList, "postfile".toList, "chainfile".toList]
  | _ => True

/-- The worlds that sequences of successful commands lead to. -/
inductive Completed (pre : Text) : World → Prop
  | start (files : Dict Text Content) (clock : Nat) : Completed pre { stat := none, files := files, clock := clock, log := [] }
  | step (w w' : World) (c : Command) (o : Oracle) : Completed pre w → c.Plain → c.Clean → runCommand pre o c w = (.ok (), w') → Completed pre w'

/-- The last fit or MCMC run. -/
def lastFitOrMcmc : List Event → Option Source
  | [] => none
  | .fit n :: _ => some ⟨.fit, n⟩
  | .mcmc n :: _ => some ⟨.mcmc, n⟩
  | _ :: t => lastFitOrMcmc t

/-- The last MCMC run. -/
def lastMcmc : List Event → Option Source
  | [] => none
  | .mcmc n :: _ => some ⟨.mcmc, n⟩
  | _ :: t => lastMcmc t

/-- The last run of the nested sampler. -/
def lastNs : List Event → Option Source
  | [] => none
  | .ns n :: _ => some ⟨.ns, n⟩
  | _ :: t => lastNs t

/-- The samples that parameters were derived from last. -/
def lastDerive : List Event → Option Source
  | [] => none
  | .derive s :: _ => some s
  | _ :: t => lastDerive t

/-- The MCMC run whose samples parameters were derived from last, provided that nothing has been fitted since. -/
def massesSinceFit : List Event → Option Source
  | [] => none
  | .fit _ :: _ => none
  | .derive s :: t => if s.stage = .mcmc then some s else massesSinceFit t
  | _ :: t => massesSinceFit t

/-- The sampler that a request leads to. -/
def Chosen (log : List Event) (request s : Text) : Prop := Sampled s log ∧ (request = s ∨ (request = "auto".toList ∧ (s = "mcmc".toList ∨ ¬ ∃ n, Event.mcmc n ∈ log)))

/-- What a plot needs in order to succeed. -/
def PlotOk (log : List Event) (request : Text) : PlotType → Prop
  | .rv => True
  | .corner => ∃ s, Chosen log request s
  | .auto => Chosen log request "mcmc".toList
  | .trend => Chosen log request "mcmc".toList
  | .derived => Derived log

/-- What a table needs in order to succeed, besides samples. -/
def TableOk (log : List Event) (s : Text) : TableType → Prop
  | .params => s = "mcmc".toList → lastFitOrMcmc log = lastMcmc log
  | .icCompare => Event.ic ∈ log
  | .derived => Derived log ∧ (s = "mcmc".toList → lastFitOrMcmc log = lastMcmc log)
  | _ => True

end Radvel
