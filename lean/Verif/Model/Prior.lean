import Verif.Py.Float
import Verif.Model.Basis

/-!
# `radvel/prior.py` and `radvel/utils.py` 373-383

Values are exact reals; log densities are `Fl` (with infinities and nan).
-/

namespace Radvel
open Real

/-- `vector.vector[vector.indices[key]][0]`, /repo/radvel/prior.py 40, 117, 174, 219, 336, 392, 463, 539, 591. -/
def readPar (s : VState ℝ) (key : Key) : Except PyErr ℝ :=
  match s.indices.get? key with
  | none => .error .keyError
  | some i =>
    match s.rows[i]? with
    | none => .error .indexError
    | some r => .ok r.value

/-- `Gaussian.__call__`, /repo/radvel/prior.py 39-41. With `sigma = 0` the two terms are `-inf` (or nan) and `+inf`: nan. -/
noncomputable def gaussianLogpdf (mu sigma x : ℝ) : Fl :=
  if sigma = 0 then .nan
  else .fin (-0.5 * ((x - mu) / sigma) ^ 2 - 0.5 * log (sigma ^ 2 * 2 * π))

open Classical in
/-- `HardBounds.__call__`, /repo/radvel/prior.py 206-226. The bounds may be infinite. `np.log(maxval - minval)` is only reached when
`minval < x < maxval`. -/
noncomputable def hardBoundsLogpdf (minval maxval : Fl) (x : ℝ) : Fl :=
  if minval.ge x ∨ maxval.le x then .neg
  else
    match minval, maxval with
    | .fin a, .fin b => (Fl.log (b - a)).minus
    | _, _ => .fin 0

/-- `Jeffreys.normalization`, /repo/radvel/prior.py 333. Simplification: real division and logarithm, so bounds that make Python raise or
return nan (`minval = 0`, bounds of opposite sign) are not represented. -/
noncomputable def jeffreysNorm (minval maxval : ℝ) : ℝ := 1 / log (maxval / minval)

open Classical in
/-- `Jeffreys.__call__`, /repo/radvel/prior.py 335-340. -/
noncomputable def jeffreysLogpdf (minval maxval x : ℝ) : Fl :=
  if x < minval ∨ x > maxval then .neg
  else Fl.log (jeffreysNorm minval maxval) + (Fl.log x).minus

/-- `ModifiedJeffreys.normalization`, /repo/radvel/prior.py 387; same simplification as `jeffreysNorm`. -/
noncomputable def modJeffreysNorm (minval maxval kneeval : ℝ) : ℝ := 1 / log ((maxval - kneeval) / (minval - kneeval))

open Classical in
/-- `ModifiedJeffreys.__call__`, /repo/radvel/prior.py 391-396. -/
noncomputable def modJeffreysLogpdf (minval maxval kneeval x : ℝ) : Fl :=
  if x > maxval ∨ x < minval then .neg
  else Fl.log (modJeffreysNorm minval maxval kneeval) + (Fl.log (x - kneeval)).minus

/-- `self.param.startswith('logper')`, /repo/radvel/prior.py 593. -/
def isLogper (param : Key) : Bool := "logper".toList.isPrefixOf param.render

open Classical in
/-- `InformativeBaselinePrior.__call__` after reading the parameter value `v`, /repo/radvel/prior.py 589-599. Division by a zero period cannot be
reached when `baseline + duration > 0`. -/
noncomputable def baselineLogpdf (logper : Bool) (baseline duration v : ℝ) : Fl :=
  let per := if logper then exp v else v
  if per - duration ≤ baseline then .fin 0
  else Fl.log ((baseline + duration) / per)

/-- The eccentricity computed by `EccentricityPrior` for one planet, /repo/radvel/prior.py 122-134. Every valid basis contains one of the four words, so
the `UnboundLocalError` after the last `elif` is never raised (`eccOf_block` in Lemmas/Prior.lean). -/
noncomputable def eccOf (s : VState ℝ) (n : Nat) : Except PyErr ℝ :=
  let parnames := s.params.basis.words
  if PName.e ∈ parnames then readPar s (.orb .e n)
  else if PName.secosw ∈ parnames then do
    let secosw ← readPar s (.orb .secosw n)
    let sesinw ← readPar s (.orb .sesinw n)
    return secosw ^ 2 + sesinw ^ 2
  else if PName.ecosw ∈ parnames then do
    let ecosw ← readPar s (.orb .ecosw n)
    let esinw ← readPar s (.orb .esinw n)
    return √(ecosw ^ 2 + esinw ^ 2)
  else if PName.se ∈ parnames then do
    let secc ← readPar s (.orb .se n)
    return secc ^ 2
  else .error .unboundLocalError

/-- What a violated constraint returns: `-np.inf if not finite else -1e100`, /repo/radvel/prior.py 137 and 183. -/
noncomputable def rejected (finite : Bool) : Fl := if finite then .fin (-1e100) else .neg

open Classical in
/-- The loop of `EccentricityPrior.__call__`, /repo/radvel/prior.py 121-137, over the pairs of `enumerate(self.planet_list)` with `self.upperlims[i]`:
`some v` is the early return. -/
noncomputable def eccLoop (s : VState ℝ) (finite : Bool) : List (Nat × ℝ) → Except PyErr (Option Fl)
  | [] => .ok none
  | (n, lim) :: t =>
    match eccOf s n with
    | .error e => .error e
    | .ok ecc => if ecc > lim ∨ ecc < 0 then .ok (some (rejected finite)) else eccLoop s finite t

/-- `EccentricityPrior.__init__`, /repo/radvel/prior.py 99-113: planets given as a count or a list, limits as one float or a list.
Returns the pairs (planet, limit). -/
def eccInit (planets : Nat ⊕ List Nat) (upperlims : ℝ ⊕ List ℝ) : Except PyErr (List (Nat × ℝ)) :=
  let planetList := match planets with
    | .inl n => (List.range n).map (· + 1)
    | .inr l => l
  match upperlims with
  | .inl x => .ok (planetList.map (fun p => (p, x)))
  | .inr l => if l.length = planetList.length then .ok (planetList.zip l) else .error .assertionError

/-- `EccentricityPrior.__call__`, /repo/radvel/prior.py 115-139. -/
noncomputable def eccCall (pairs : List (Nat × ℝ)) (s : VState ℝ) (finite : Bool) : Except PyErr Fl :=
  match eccLoop s finite pairs with
  | .error e => .error e
  | .ok (some v) => .ok v
  | .ok none => .ok ((pairs.map (fun p => Fl.log p.2)).sum).minus

/-- The amplitude read by `PositiveKPrior`, /repo/radvel/prior.py 177-180: `logk` is used only if `k{n}` has no index. -/
noncomputable def ampOf (s : VState ℝ) (n : Nat) : Except PyErr ℝ :=
  match readPar s (.orb .k n) with
  | .error .keyError => do
    let logk ← readPar s (.orb .logk n)
    return exp logk
  | r => r

open Classical in
/-- `PositiveKPrior.__call__`, /repo/radvel/prior.py 172-184, loop over the planets `n, n + 1, ...`. -/
noncomputable def posKLoop (s : VState ℝ) (finite : Bool) : List Nat → Except PyErr Fl
  | [] => .ok (.fin 0)
  | n :: t =>
    match ampOf s n with
    | .error e => .error e
    | .ok k => if k < 0 then .ok (rejected finite) else posKLoop s finite t

/-- `PositiveKPrior.__call__`, /repo/radvel/prior.py 172-184. -/
noncomputable def posKCall (numPlanets : Nat) (s : VState ℝ) (finite : Bool) : Except PyErr Fl :=
  posKLoop s finite ((List.range numPlanets).map (· + 1))

/-- `np.mod(x, P) / P`, /repo/radvel/utils.py 379-380, for `P > 0`. -/
noncomputable def phaseOf (x P : ℝ) : ℝ := (x - P * ⌊x / P⌋) / P

/-- Row `j` of planet `n` in the synth array, /repo/radvel/prior.py 289-292 and /repo/radvel/utils.py 377-378 (`-5 + 5*n + j`). Simplification: planet numbers
start at 1 (a number 0 would index from the end in Python). -/
def synthRow (rows : List (Row ℝ)) (n j : Nat) : Except PyErr ℝ :=
  match rows[5 * (n - 1) + j]? with
  | some r => .ok r.value
  | none => .error .indexError

/-- `t_to_phase_vector`, /repo/radvel/utils.py 373-383 (`cat=False`): phases are counted from periastron. -/
noncomputable def tToPhaseVector (s : VState ℝ) (t : ℝ) (n : Nat) : Except PyErr ℝ := do
  let rows ← vToSynth s.params.basis s.params.numPlanets s.rows
  let P ← synthRow rows n 0
  let tc ← synthRow rows n 1
  return phaseOf (t - tc) P

/-- `SecondaryEclipsePrior.__call__`, /repo/radvel/prior.py 283-302. -/
noncomputable def secEclipseCall (n : Nat) (ts tsErr : ℝ) (s : VState ℝ) : Except PyErr Fl := do
  let rows ← vToSynth s.params.basis s.params.numPlanets s.rows
  let tp ← synthRow rows n 1
  let per ← synthRow rows n 0
  let ecc ← synthRow rows n 2
  let omega ← synthRow rows n 3
  let pred := timeperiToTimetrans tp per ecc omega true
  let tsPhase ← tToPhaseVector s pred n
  let pts ← tToPhaseVector s ts n
  let epts := tsErr / per
  return gaussianLogpdf pts epts tsPhase

/-- The prior classes with their attributes, /repo/radvel/prior.py. `numerical` carries the log density estimate and the interpolated transform, `user` the
two user functions (`none`: `transform_func=None`). -/
inductive Prior
  | gaussian (param : Key) (mu sigma : ℝ)
  | ecc (pairs : List (Nat × ℝ))
  | posK (numPlanets : Nat)
  | hardBounds (param : Key) (minval maxval : Fl)
  | secEclipse (planet : Nat) (ts tsErr : ℝ)
  | jeffreys (param : Key) (minval maxval : ℝ)
  | modJeffreys (param : Key) (minval maxval kneeval : ℝ)
  | numerical (params : List Key) (logpdf : List ℝ → Fl) (inv : ℝ → ℝ)
  | user (params : List Key) (func : List ℝ → Fl) (inv : Option (ℝ → ℝ))
  | baseline (param : Key) (baseline duration : ℝ)

/-- `extra_constraint`, /repo/radvel/prior.py 17, 79, 161, 264. -/
def Prior.extraConstraint : Prior → Bool
  | .ecc _ | .posK _ | .secEclipse _ _ _ => true
  | _ => false

/-- `prior.param`; `none`: no such attribute (`AttributeError`), /repo/radvel/prior.py 37, 209, 331, 383, 579 and 99-113, 169, 277-281, 452, 530. -/
def Prior.param? : Prior → Option Key
  | .gaussian p _ _ | .hardBounds p _ _ | .jeffreys p _ _ | .modJeffreys p _ _ _ | .baseline p _ _ => some p
  | _ => none

/-- Does `__call__` accept the keyword `finite`? /repo/radvel/prior.py 115 and 172; no other class does. -/
def Prior.takesFinite : Prior → Bool
  | .ecc _ | .posK _ => true
  | _ => false

/-- Values of several parameters, /repo/radvel/prior.py 461-463 and 537-539. -/
def readPars (s : VState ℝ) : List Key → Except PyErr (List ℝ)
  | [] => .ok []
  | k :: t =>
    match readPar s k with
    | .error e => .error e
    | .ok x =>
      match readPars s t with
      | .error e => .error e
      | .ok xs => .ok (x :: xs)

/-- The one-parameter log density of the classes with a `param`, /repo/radvel/prior.py 39-41, 218-226, 335-340, 391-396, 589-599. -/
noncomputable def Prior.logpdf1 : Prior → ℝ → Fl
  | .gaussian _ mu sigma, x => gaussianLogpdf mu sigma x
  | .hardBounds _ a b, x => hardBoundsLogpdf a b x
  | .jeffreys _ a b, x => jeffreysLogpdf a b x
  | .modJeffreys _ a b c, x => modJeffreysLogpdf a b c x
  | .baseline p b d, x => baselineLogpdf (isLogper p) b d x
  | _, _ => .nan

/-- `prior(params, vector)` (`finite = none`) or `prior(params, vector, finite=...)`: a class without that keyword raises `TypeError`.
Models /repo/radvel/prior.py 39, 115, 172, 218, 283, 335, 391, 460, 536, 589. -/
noncomputable def Prior.call (s : VState ℝ) (finite : Option Bool) (p : Prior) : Except PyErr Fl :=
  if finite.isSome && !p.takesFinite then .error .typeError
  else
    match p with
    | .ecc pairs => eccCall pairs s (finite.getD false)
    | .posK n => posKCall n s (finite.getD false)
    | .secEclipse n ts err => secEclipseCall n ts err s
    | .numerical ks f _ =>
      match readPars s ks with
      | .ok xs => .ok (f xs)
      | .error e => .error e
    | .user ks f _ =>
      match readPars s ks with
      | .ok xs => .ok (f xs)
      | .error e => .error e
    | .gaussian k _ _ | .hardBounds k _ _ | .jeffreys k _ _ | .modJeffreys k _ _ _ | .baseline k _ _ =>
      match readPar s k with
      | .ok x => .ok (p.logpdf1 x)
      | .error e => .error e

/-- `prior.transform(u)`, /repo/radvel/prior.py 43-44, 141, 186, 228-231, 304, 342-343, 398-399, 467-468, 542-545, 601-603. `ppf` is the standard
normal quantile function of SciPy (`norm.ppf(u, loc, scale) = loc + scale * ppf u`). For arguments that make sense only; `Model/PriorInit` has the others (SciPy gives nan for a scale that is not positive). -/
noncomputable def Prior.transform (ppf : ℝ → ℝ) (p : Prior) (u : ℝ) : Except PyErr ℝ :=
  match p with
  | .gaussian _ mu sigma => .ok (mu + sigma * ppf u)
  | .hardBounds _ (.fin a) (.fin b) => .ok (a + u * (b - a))
  | .hardBounds _ _ _ => .error .valueError
  | .jeffreys _ a b => .ok (a * exp (u * log (b / a)))
  | .modJeffreys _ a b c => .ok (c + (a - c) * exp (u / modJeffreysNorm a b c))
  | .numerical _ _ inv => .ok (inv u)
  | .user _ _ (some f) => .ok (f u)
  | .user _ _ none => .error .typeError
  | .ecc _ | .posK _ | .secEclipse _ _ _ | .baseline _ _ _ => .error .notImplementedError

end Radvel
