import Verif.Model.Prior

/-!
# Constructing one-parameter priors from any arguments, /repo/radvel/prior.py 34-44, 206-231, 328-343, 381-399

Here `normalization` is an attribute that may be infinite or nan, and the constructors may raise; `Model/Prior` has the densities for arguments that make sense. The arguments are floats of Python
(those of NumPy would not raise when divided by zero). Warnings are left out.
-/

namespace Radvel
open Real

/-- The calls of the constructors with a scale or bounds, /repo/radvel/prior.py 34, 206, 328, 381; the name of the parameter plays no role here. -/
inductive PriorArgs
  | gaussian (mu sigma : ℝ)
  | hardBounds (minval maxval : Fl)
  | jeffreys (minval maxval : ℝ)
  | modJeffreys (minval maxval kneeval : ℝ)

/-- What a prior object does: `__call__` as a function of the value of its parameter, and `transform`. Used for /repo/radvel/prior.py 39-44, 218-231, 335-343, 391-399. -/
structure PriorObj where
  call : ℝ → Fl
  transform : ℝ → Except PyErr Fl

/-- `1./y` for a NumPy number `y`. Used for /repo/radvel/prior.py 333, 387. -/
noncomputable def flInv : Fl → Fl
  | .fin y => if y = 0 then .pos else .fin (1 / y)
  | .pos => .fin 0
  | .neg => .fin 0
  | .nan => .nan

/-- `np.log(y)`. Used for /repo/radvel/prior.py 340, 396. -/
noncomputable def flLog : Fl → Fl
  | .fin y => Fl.log y
  | .pos => .pos
  | _ => .nan

/-- `m * np.exp(y)` for a finite `m`; infinite only if `m` is not zero. Used for /repo/radvel/prior.py 343, 399. -/
noncomputable def mulExp (m : ℝ) : Fl → Fl
  | .fin y => .fin (m * exp y)
  | .neg => .fin 0
  | .pos => if 0 < m then .pos else if m < 0 then .neg else .nan
  | .nan => .nan

/-- `u * y` for a finite `u`. Used for /repo/radvel/prior.py 343. -/
noncomputable def flScale (u : ℝ) : Fl → Fl
  | .fin y => .fin (u * y)
  | .pos => if 0 < u then .pos else if u < 0 then .neg else .nan
  | .neg => if 0 < u then .neg else if u < 0 then .pos else .nan
  | .nan => .nan

/-- `u / y` for a NumPy number `y`. Used for /repo/radvel/prior.py 399. -/
noncomputable def flDiv (u : ℝ) : Fl → Fl
  | .fin y => if y = 0 then (if 0 < u then .pos else if u < 0 then .neg else .nan) else .fin (u / y)
  | .pos => .fin 0
  | .neg => .fin 0
  | .nan => .nan

/-- `norm.ppf(u, loc=mu, scale=sigma)`, /repo/radvel/prior.py 44: SciPy gives nan for a scale that is not positive; `ppf` is the standard quantile function. -/
noncomputable def normPpf (ppf : ℝ → ℝ) (mu sigma u : ℝ) : Fl := if 0 < sigma then .fin (mu + sigma * ppf u) else .nan

/-- `HardBounds.transform`, /repo/radvel/prior.py 228-231. -/
noncomputable def hardBoundsTransform (minval maxval : Fl) (u : ℝ) : Except PyErr Fl :=
  match minval, maxval with
  | .fin a, .fin b => .ok (.fin (a + u * (b - a)))
  | _, _ => .error .valueError

open Classical in
/-- A `Jeffreys` prior with its `normalization`, /repo/radvel/prior.py 335-343. -/
noncomputable def jeffreysObj (a b : ℝ) (norm : Fl) : PriorObj where
  call x := if x < a ∨ x > b then .neg else flLog norm + (Fl.log x).minus
  transform u := .ok (mulExp a (flScale u (Fl.log (b / a))))

/-- `c + y`. Used for /repo/radvel/prior.py 399. -/
noncomputable def flShift (c : ℝ) (y : Fl) : Fl := .fin c + y

open Classical in
/-- A `ModifiedJeffreys` prior with its `normalization`, /repo/radvel/prior.py 391-399. -/
noncomputable def modJeffreysObj (a b c : ℝ) (norm : Fl) : PriorObj where
  call x := if x > b ∨ x < a then .neg else flLog norm + (Fl.log (x - c)).minus
  transform u := .ok (flShift c (mulExp (a - c) (flDiv u norm)))

open Classical in
/-- The constructors, /repo/radvel/prior.py 34-37, 206-216, 328-333, 381-389: the division of two floats raises for a zero divisor, before the assertion of 389. -/
noncomputable def priorNew (ppf : ℝ → ℝ) : PriorArgs → Except PyErr PriorObj
  | .gaussian mu sigma => .ok ⟨gaussianLogpdf mu sigma, fun u => .ok (normPpf ppf mu sigma u)⟩
  | .hardBounds a b => .ok ⟨hardBoundsLogpdf a b, hardBoundsTransform a b⟩
  | .jeffreys a b => if a = 0 then .error .zeroDivisionError else .ok (jeffreysObj a b (flInv (Fl.log (b / a))))
  | .modJeffreys a b c =>
    if a - c = 0 then .error .zeroDivisionError
    else if a > c then .ok (modJeffreysObj a b c (flInv (Fl.log ((b - c) / (a - c)))))
    else .error .assertionError

/-- `num_planets` of `EccentricityPrior`, /repo/radvel/prior.py 99-106: an integer, or a list of planets. -/
inductive PlanetArg
  | count (n : ℤ)
  | list (l : List Nat)

/-- `upperlims` of `EccentricityPrior`, /repo/radvel/prior.py 108-113: a number whose type is `float`, a list, or a number of any other type (an `int`, a `numpy.float64`), which has no `len`. -/
inductive LimitArg
  | float (x : ℝ)
  | list (l : List ℝ)
  | number (x : ℝ)

/-- The planets as `eccInit` takes them, /repo/radvel/prior.py 101-106; `range` of a negative count is empty. -/
def PlanetArg.toSum : PlanetArg → Nat ⊕ List Nat
  | .count n => .inl n.toNat
  | .list l => .inr l

/-- `EccentricityPrior.__init__`, /repo/radvel/prior.py 99-113, with the test of the type of `upperlims`. -/
def eccNew (planets : PlanetArg) (lims : LimitArg) : Except PyErr (List (Nat × ℝ)) :=
  match lims with
  | .float x => eccInit planets.toSum (.inl x)
  | .list l => eccInit planets.toSum (.inr l)
  | .number _ => .error .typeError

end Radvel
