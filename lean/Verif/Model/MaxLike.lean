import Verif.Model.Posterior

/-!
# `radvel/fitting.py` 14-46: the maximum-likelihood fit

`scipy.optimize.minimize` is outside the project. It is an arbitrary strategy that chooses points from the function values it has seen; the number of evaluations is bounded by `fuel` (the option
`maxfev`). The printed messages are left out (they evaluate `logprob` once before and once after the fit).
-/

namespace Radvel

/-- An optimiser: the next point at which it evaluates the function, given the starting point and the values so far (`none`: it stops), and the solution it then returns.
Used for /repo/radvel/fitting.py 36-38. -/
structure Optimiser where
  next : List ℝ → List (List ℝ × Fl) → Option (List ℝ)
  result : List ℝ → List (List ℝ × Fl) → List ℝ

/-- `neglogprob_array`, /repo/radvel/likelihood.py 188-189 with `Posterior.logprob_array`. -/
noncomputable def PostState.neglogprobArray (like : LikeEval) (p : PostState) (xs : List ℝ) : PostState × Except PyErr Fl :=
  match p.logprobArray like xs with
  | (p', .error e) => (p', .error e)
  | (p', .ok v) => (p', .ok v.minus)

/-- The evaluations made by `scipy.optimize.minimize(post.neglogprob_array, x0, ...)`, /repo/radvel/fitting.py 37-39: the posterior afterwards and the values seen. -/
noncomputable def minimize (like : LikeEval) (opt : Optimiser) (x0 : List ℝ) : Nat → PostState → List (List ℝ × Fl) → PostState × Except PyErr (List (List ℝ × Fl))
  | 0, p, h => (p, .ok h)
  | n + 1, p, h =>
    match opt.next x0 h with
    | none => (p, .ok h)
    | some x =>
      match p.neglogprobArray like x with
      | (p', .error e) => (p', .error e)
      | (p', .ok v) => minimize like opt x0 n p' (h ++ [(x, v)])

/-- `maxlike_fitting`, /repo/radvel/fitting.py 14-46: the solution returned by the optimiser is discarded; the vector, as the last evaluation left it, is copied to the dictionary. The values the optimiser
has seen are returned as well, for the statement of the properties. -/
noncomputable def maxlikeFitting (like : LikeEval) (opt : Optimiser) (fuel : Nat) (p : PostState) : PostState × Except PyErr (List (List ℝ × Fl)) :=
  match p.ownState.getVaryParams with
  | (_, .error e) => (p, .error e)
  | (l, .ok x0) =>
    match minimize like opt x0 fuel { p with postCache := l.cache } [] with
    | (q, .error e) => (q, .error e)
    | (q, .ok h) =>
      match q.st.vectorToDict with
      | .error e => (q, .error e)
      | .ok st => ({ q with st := st }, .ok h)

end Radvel
