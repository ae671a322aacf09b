import Verif.Model.Posterior
import Verif.Spec.RVLike

/-!
Histories of posterior evaluations, and which priors avoid analytically marginalised gammas (specification side of C34).
-/

namespace Radvel

/-- An evaluation by a sampler or optimiser with any array: `logprob_array` or `likelihood_ns_array`. -/
inductive PostCall
  | logprobArray (xs : List ℝ)
  | likelihoodNsArray (xs : List ℝ)

/-- The posterior after the evaluation (also after one that raised an exception). -/
noncomputable def PostCall.run (like : LikeEval) (p : PostState) : PostCall → PostState
  | .logprobArray xs => (p.logprobArray like xs).1
  | .likelihoodNsArray xs => (p.likelihoodNsArray like xs).1

/-- The posterior after any number of evaluations. -/
noncomputable def PostState.runAll (like : LikeEval) (p : PostState) (calls : List PostCall) : PostState := calls.foldl (PostCall.run like) p

/-- The parameters a prior names. -/
def Prior.keys : Prior → List Key
  | .gaussian k _ _ | .hardBounds k _ _ | .jeffreys k _ _ | .modJeffreys k _ _ _ | .baseline k _ _ => [k]
  | .numerical ks _ _ | .user ks _ _ => ks
  | _ => []

/-- The planets a prior names. -/
def Prior.planets : Prior → List Nat
  | .ecc pairs => pairs.map Prod.fst
  | .posK n => (List.range n).map (· + 1)
  | .secEclipse n _ _ => [n]
  | _ => []

/-- The prior is about existing parameters and planets, and about no analytically marginalised gamma (a linear gamma that does not vary). -/
structure Prior.GammaFree (s : VState ℝ) (p : Prior) : Prop where
  known : ∀ k ∈ p.keys, k ∈ s.params.items.keys ∨ k = .dvdt ∨ k = .curv
  planets : ∀ n ∈ p.planets, 1 ≤ n ∧ n ≤ s.params.numPlanets
  gamma : ∀ suffix i, Key.inst .gamma suffix ∈ p.keys → s.indices.get? (.inst .gamma suffix) = some i → ¬ AnalyticGamma s i

end Radvel
