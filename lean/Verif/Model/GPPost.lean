import Verif.Model.Setup
import Verif.Model.Posterior

/-!
# Posteriors whose likelihoods have Gaussian processes

`CompositeLikelihood.logprob`, /repo/radvel/likelihood.py 287-294, and `Posterior.logprob_array`, /repo/radvel/posterior.py 178-193, with members that change the shared
dictionary and their own kernels when they are evaluated, also when they raise.
-/

namespace Radvel

/-- A posterior, /repo/radvel/posterior.py 19-28, on a composite of GP likelihoods: the shared state, the likelihood's cache of the free rows, the priors, and the members of
`like_list` with their kernels (/repo/radvel/likelihood.py 285). -/
structure GPPost where
  st : VState ℝ
  likeCache : Option (List Nat)
  priors : List Prior
  members : List (GPLike × Kernel)

/-- The loop of `CompositeLikelihood.logprob`, /repo/radvel/likelihood.py 291-294, with the sum so far: an exception stops it, the state then is what was reached. -/
noncomputable def gpSum (mod : Curve) : List (GPLike × Kernel) → VState ℝ → Fl → (VState ℝ × List (GPLike × Kernel)) × Except PyErr Fl
  | [], s, acc => ((s, []), .ok acc)
  | (G, k) :: t, s, acc =>
    match G.logprob mod { st := s, kernel := k } with
    | (g, .error e) => ((g.st, (G, g.kernel) :: t), .error e)
    | (g, .ok v) =>
      match gpSum mod t g.st (acc + v) with
      | ((s', t'), r) => ((s', (G, g.kernel) :: t'), r)

/-- The members of the composite that `initialize_posterior` makes, if all are GP likelihoods, /repo/radvel/utils.py 127-137. -/
def gpMembers : List InstLike → Option (List (GPLike × Kernel))
  | [] => some []
  | .gp G k :: t => (gpMembers t).map ((G, k) :: ·)
  | _ :: _ => none

/-- `self.likelihood.set_vary_params(values, fast=True)`, /repo/radvel/posterior.py 171, 187. -/
def GPPost.setFast (p : GPPost) (xs : List ℝ) : GPPost × Option PyErr :=
  let r := LikeState.setVaryParams { st := p.st, cache := p.likeCache } xs true
  ({ p with st := r.1.st, likeCache := r.1.cache }, r.2)

/-- `v + self.likelihood.logprob()`, /repo/radvel/posterior.py 49 and 174. -/
noncomputable def GPPost.addLike (mod : Curve) (p : GPPost) (v : Fl) : GPPost × Except PyErr Fl :=
  match gpSum mod p.members p.st 0 with
  | ((s, ms), .ok l) => ({ p with st := s, members := ms }, .ok (v + l))
  | ((s, ms), .error e) => ({ p with st := s, members := ms }, .error e)

/-- `Posterior.logprob`, /repo/radvel/posterior.py 38-50. -/
noncomputable def GPPost.logprob (mod : Curve) (p : GPPost) : GPPost × Except PyErr Fl :=
  match priorSum p.st p.priors with
  | .error e => (p, .error e)
  | .ok v => if v.isFinite then p.addLike mod v else (p, .ok v)

/-- `logprob_array`, /repo/radvel/posterior.py 178-193. -/
noncomputable def GPPost.logprobArray (mod : Curve) (p : GPPost) (xs : List ℝ) : GPPost × Except PyErr Fl :=
  match p.setFast xs with
  | (p', some e) => (p', .error e)
  | (p', none) => p'.logprob mod

/-- `likelihood_ns_array`, /repo/radvel/posterior.py 160-176. -/
noncomputable def GPPost.likelihoodNsArray (mod : Curve) (p : GPPost) (xs : List ℝ) : GPPost × Except PyErr Fl :=
  match p.setFast xs with
  | (p', some e) => (p', .error e)
  | (p', none) =>
    match extraLikelihood p'.st p'.priors with
    | .error e => (p', .error e)
    | .ok v => if v.isFinite then p'.addLike mod v else (p', .ok (.fin (-1e100)))

/-- `Posterior(like)` on the composite of a setup file, /repo/radvel/utils.py 137-143 with posterior.py 19-28, and the file's list of priors: the vector is rebuilt from the
dictionary. `none`: a member is not a (matrix) GP likelihood, see `PostState` for white noise. -/
noncomputable def GPPost.init (r : SetupPost) (priors : List Prior) : Option (Except PyErr GPPost) :=
  (gpMembers (r.likes.map Prod.snd)).map fun ms =>
    match r.st.dictToVector with
    | .error e => .error e
    | .ok st => .ok { st := st, likeCache := none, priors := priors, members := ms }

end Radvel
