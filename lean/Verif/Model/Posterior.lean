import Verif.Model.Prior
import Verif.Model.Like

/-!
# `radvel/posterior.py`

The likelihood's log probability is a function `like` of the shared state; concrete likelihoods are in `Verif/Model/RVLike.lean`.
-/

namespace Radvel

/-- `class Posterior`, /repo/radvel/posterior.py 19-28: the shared state, the `vary_params` caches of the likelihood object and of the posterior object
itself (two different attributes), and the list of priors. -/
structure PostState where
  st : VState ℝ
  likeCache : Option (List Nat)
  postCache : Option (List Nat)
  priors : List Prior

/-- `Posterior.__init__`, /repo/radvel/posterior.py 19-28: the vector is rebuilt from the dictionary and the posterior's own cache is filled. -/
noncomputable def PostState.init (l : LikeState ℝ) : Except PyErr PostState :=
  match l.st.dictToVector with
  | .error e => .error e
  | .ok st => .ok { st := st, likeCache := l.cache, postCache := some (freeRows st.rows), priors := [] }

/-- The likelihood seen through the free-parameter interface. Models /repo/radvel/likelihood.py 143-180. -/
def PostState.likeState (p : PostState) : LikeState ℝ := { st := p.st, cache := p.likeCache }

/-- The posterior's own inherited free-parameter interface. Models /repo/radvel/posterior.py 19-28, /repo/radvel/likelihood.py 143-180. -/
def PostState.ownState (p : PostState) : LikeState ℝ := { st := p.st, cache := p.postCache }

/-- `_logprob = 0; for prior in self.priors: _logprob += prior(self.params, self.vector)`, /repo/radvel/posterior.py 45-47. -/
noncomputable def priorStep (s : VState ℝ) (acc : Fl) (p : Prior) : Except PyErr Fl :=
  match p.call s none with
  | .ok v => .ok (acc + v)
  | .error e => .error e

/-- The loop of `Posterior.logprob`, /repo/radvel/posterior.py 45-47. -/
noncomputable def priorSum (s : VState ℝ) (priors : List Prior) : Except PyErr Fl := priors.foldlM (priorStep s) 0

/-- `Posterior.logprob`, /repo/radvel/posterior.py 38-50. -/
noncomputable def logprob (like : VState ℝ → Except PyErr Fl) (s : VState ℝ) (priors : List Prior) : Except PyErr Fl :=
  match priorSum s priors with
  | .error e => .error e
  | .ok v =>
    if v.isFinite then
      match like s with
      | .ok l => .ok (v + l)
      | .error e => .error e
    else .ok v

/-- `get_prior_dict`, /repo/radvel/posterior.py 52-67: priors without a `param` attribute are skipped. -/
def getPriorDict (priors : List Prior) : Dict Key (List Prior) :=
  priors.foldl (fun d p => match p.param? with
    | none => d
    | some k => match d.get? k with
      | none => d.set k [p]
      | some l => d.set k (l ++ [p])) []

/-- The first loop of `check_proper_priors`, /repo/radvel/posterior.py 76-95. -/
def checkFree (d : Dict Key (List Prior)) (names : List Key) : Except PyErr Unit :=
  names.forM (fun pname =>
    let priorList := (d.get? pname).getD []
    let n := (priorList.filter (fun p => !p.extraConstraint)).length
    if priorList.length = 0 then .error .valueError
    else if n = 0 then .error .valueError
    else if n > 1 then .error .valueError
    else .ok ())

/-- The second loop of `check_proper_priors`, /repo/radvel/posterior.py 96-102. -/
def checkFixed (d : Dict Key (List Prior)) (names : List Key) : Except PyErr Unit :=
  d.forM (fun item => item.2.forM (fun p =>
    if item.1 ∉ names ∧ p.extraConstraint = false then .error .valueError else .ok ()))

/-- `check_proper_priors`, /repo/radvel/posterior.py 69-102; `names` is `self.name_vary_params()`. -/
def checkProperPriors (priors : List Prior) (names : List Key) : Except PyErr Unit := do
  let d := getPriorDict priors
  checkFree d names
  checkFixed d names

/-- One turn of the loop of `prior_transform`, /repo/radvel/posterior.py 124-129: the first non-constraint prior transforms coordinate `ind`. With `inplace`
the array `u` is `x` itself. -/
noncomputable def transformStep (ppf : ℝ → ℝ) (d : Dict Key (List Prior)) (inplace : Bool) (u x : List ℝ) (ind : Nat) (pname : Key) :
    Except PyErr (List ℝ) :=
  match d.get? pname with
  | none => .error .keyError
  | some l =>
    match l.find? (fun p => !p.extraConstraint) with
    | none => .ok x
    | some p =>
      match (if inplace then x else u)[ind]? with
      | none => .error .indexError
      | some ui =>
        match p.transform ppf ui with
        | .error e => .error e
        | .ok v => .ok (x.set ind v)

/-- The loop of `prior_transform` from coordinate `ind` on, /repo/radvel/posterior.py 124-129. -/
noncomputable def transformLoop (ppf : ℝ → ℝ) (d : Dict Key (List Prior)) (inplace : Bool) (u : List ℝ) :
    Nat → List Key → List ℝ → Except PyErr (List ℝ)
  | _, [], x => .ok x
  | ind, pname :: t, x =>
    match transformStep ppf d inplace u x ind pname with
    | .error e => .error e
    | .ok x' => transformLoop ppf d inplace u (ind + 1) t x'

/-- `prior_transform`, /repo/radvel/posterior.py 105-131. Simplification: after an exception the partly overwritten in-place array is not represented. -/
noncomputable def priorTransform (ppf : ℝ → ℝ) (priors : List Prior) (names : List Key) (inplace : Bool) (u : List ℝ) : Except PyErr (List ℝ) :=
  transformLoop ppf (getPriorDict priors) inplace u 0 names u

/-- One turn of the loop of `extra_likelihood`, /repo/radvel/posterior.py 143-145: the keyword `finite=True` is always passed. -/
noncomputable def extraStep (s : VState ℝ) (acc : Fl) (p : Prior) : Except PyErr Fl :=
  if p.extraConstraint then
    match p.call s (some true) with
    | .ok v => .ok (acc + v)
    | .error e => .error e
  else .ok acc

/-- `extra_likelihood`, /repo/radvel/posterior.py 133-146. -/
noncomputable def extraLikelihood (s : VState ℝ) (priors : List Prior) : Except PyErr Fl := priors.foldlM (extraStep s) 0

/-- The value returned by `likelihood_ns_array` once the parameters are set, /repo/radvel/posterior.py 172-176. -/
noncomputable def likelihoodNs (like : VState ℝ → Except PyErr Fl) (s : VState ℝ) (priors : List Prior) : Except PyErr Fl :=
  match extraLikelihood s priors with
  | .error e => .error e
  | .ok v =>
    if v.isFinite then
      match like s with
      | .ok l => .ok (v + l)
      | .error e => .error e
    else .ok (.fin (-1e100))

/-- `self.likelihood.set_vary_params(values, fast=True)`, /repo/radvel/posterior.py 157, 171, 187: goes through the likelihood's cache. -/
def PostState.setFast (p : PostState) (xs : List ℝ) : PostState × Option PyErr :=
  let r := p.likeState.setVaryParams xs true
  ({ p with st := r.1.st, likeCache := r.1.cache }, r.2)

/-- Evaluating a likelihood: `like.logprob()` may write into the vector (analytic `gamma`, /repo/radvel/likelihood.py 366), so the new state is returned too. -/
abbrev LikeEval := VState ℝ → Except PyErr (VState ℝ × Fl)

/-- The number returned by `like.logprob()`. Models /repo/radvel/posterior.py 49, 174. -/
def LikeEval.value (like : LikeEval) (s : VState ℝ) : Except PyErr Fl :=
  match like s with
  | .ok (_, v) => .ok v
  | .error e => .error e

/-- The state left behind by `like.logprob()`. Simplification: after an exception, the state before. Models /repo/radvel/posterior.py 49, 174. -/
def LikeEval.after (like : LikeEval) (s : VState ℝ) : VState ℝ :=
  match like s with
  | .ok (s', _) => s'
  | .error _ => s

/-- The state after a sum `r` of priors was computed: the likelihood is evaluated only if it is finite, /repo/radvel/posterior.py 48-49 and 173-174. -/
def stateAfter (like : LikeEval) (s : VState ℝ) (r : Except PyErr Fl) : VState ℝ :=
  match r with
  | .ok v => if v.isFinite then like.after s else s
  | .error _ => s

/-- `likelihood_ns_array`, /repo/radvel/posterior.py 160-176. -/
noncomputable def PostState.likelihoodNsArray (like : LikeEval) (p : PostState) (xs : List ℝ) : PostState × Except PyErr Fl :=
  match p.setFast xs with
  | (p', some e) => (p', .error e)
  | (p', none) => ({ p' with st := stateAfter like p'.st (extraLikelihood p'.st p'.priors) }, likelihoodNs like.value p'.st p'.priors)

/-- `logprob_array`, /repo/radvel/posterior.py 178-193. -/
noncomputable def PostState.logprobArray (like : LikeEval) (p : PostState) (xs : List ℝ) : PostState × Except PyErr Fl :=
  match p.setFast xs with
  | (p', some e) => (p', .error e)
  | (p', none) => ({ p' with st := stateAfter like p'.st (priorSum p'.st p'.priors) }, logprob like.value p'.st p'.priors)

end Radvel
