import Mathlib.Analysis.SpecialFunctions.Trigonometric.Arctan
import Mathlib.Analysis.SpecialFunctions.Pow.Real
import Verif.Py.Dict

/-!
# `radvel/kepler.py`, `radvel/orbit.py`, `src/kepler.c`, `src/_kepler.pyx`

Doubles are exact reals. Where a denominator vanishes the code continues with inf/nan; this is modelled by `none`
(the element no longer satisfies `|f| > conv`, so both solvers treat it as converged).
-/

namespace Radvel
open Real

/-- `conv = 1.0e-12`, /repo/radvel/kepler.py 75; `CONV_TOL`, /repo/src/kepler.c 22. -/
noncomputable def conv : ℝ := 1e-12

/-- `E - ecc*sin(E) - M`, /repo/radvel/kepler.py 80 and 103; /repo/src/kepler.c 32 and 48. -/
noncomputable def keplerFi (M e E : ℝ) : ℝ := E - e * sin E - M

/-- One Danby correction, /repo/radvel/kepler.py 92-101 and /repo/src/kepler.c 38-46 (same formulas; the C code reuses
`d1`). A vanishing denominator makes the correction infinite and the next value nan (`none`), with one exception: if the second one vanishes and `fippp < 0`, then `d2 * fipp` is `-inf`
(`fip` and `d1 * fipp` having opposite signs) and so is the third denominator, hence `d3` is zero and `E` stays as it is. -/
noncomputable def danby (M e E : ℝ) : Option ℝ :=
  let fi := keplerFi M e E
  let fip := 1 - e * cos E
  let fipp := e * sin E
  let fippp := 1 - fip
  if fip = 0 then none
  else
    let d1 := -fi / fip
    if fip + d1 * fipp / 2 = 0 then if fippp < 0 then some E else none
    else
      let d2 := -fi / (fip + d1 * fipp / 2)
      if fip + d2 * fipp / 2 + d2 * d2 * fippp / 6 = 0 then none
      else
        let d3 := -fi / (fip + d2 * fipp / 2 + d2 * d2 * fippp / 6)
        some (E + d3)

/-- `np.abs(fiarr) > conv` for one element, /repo/radvel/kepler.py 81 and 104; /repo/src/kepler.c 33.
A nan compares false. -/
noncomputable def unconverged (M e : ℝ) (E : Option ℝ) : Bool :=
  match E with
  | some E => decide (|keplerFi M e E| > conv)
  | none => false

/-- First guess of the NumPy solver, /repo/radvel/kepler.py 76-78. -/
noncomputable def npGuess (M e : ℝ) : ℝ := M + (SignType.sign (sin M) : ℝ) * 0.85 * e

/-- `(int)` conversion followed by `sign`, applied to `sin(M)`: /repo/src/kepler.c 5-7 and 29. The argument of `sign` is an `int`, so
the sine is truncated towards zero first. -/
noncomputable def cSign (x : ℝ) : ℝ := if 1 ≤ x then 1 else if x ≤ -1 then -1 else 0

/-- First guess of the C solver, /repo/src/kepler.c 29. -/
noncomputable def cGuess (M e : ℝ) : ℝ := M + cSign (sin M) * 0.85 * e

/-- One element of the arrays in `kepler`: mean anomaly, eccentricity, current anomaly (`none` = nan/inf). Models /repo/radvel/kepler.py 78-104. -/
structure KElem where
  M : ℝ
  e : ℝ
  E : Option ℝ

/-- Is this element still iterated?. Models /repo/radvel/kepler.py 85-90. -/
noncomputable def KElem.active (x : KElem) : Bool := unconverged x.M x.e x.E

/-- The update of one element in a pass of the loop, /repo/radvel/kepler.py 88-104: only unconverged elements change. -/
noncomputable def KElem.step (x : KElem) : KElem :=
  if x.active then { x with E := x.E.bind (danby x.M x.e) } else x

/-- `while nd > 0`, /repo/radvel/kepler.py 85-105. The code has no iteration limit; `fuel` bounds the model, `none` = still running. -/
noncomputable def npLoop : Nat → List KElem → Option (List KElem)
  | fuel, l =>
    if l.any KElem.active then
      match fuel with
      | 0 => none
      | n + 1 => npLoop n (l.map KElem.step)
    else some l

/-- The arrays at the start, /repo/radvel/kepler.py 78-84. -/
noncomputable def npInit (xs : List (ℝ × ℝ)) : List KElem :=
  xs.map (fun x => { M := x.1, e := x.2, E := some (npGuess x.1 x.2) })

/-- `kepler(Marr, eccarr)`, /repo/radvel/kepler.py 66-110, without the unwrapping of one-element results (108-110).
Input: list of (M, e). -/
noncomputable def npKepler (fuel : Nat) (xs : List (ℝ × ℝ)) : Option (List (Option ℝ)) :=
  (npLoop fuel (npInit xs)).map (fun l => l.map KElem.E)

/-- What a solver call can end in: a value (possibly nan: `value none`) or `exit(-1)`. Models /repo/src/kepler.c 25-60. -/
inductive COut
  | value (E : Option ℝ)
  | exit

/-- Loop of the C solver, /repo/src/kepler.c 33-56, `count` iterations done. The test `count==MAX_ITER` inside the loop exits the process
even if the last step converged. -/
noncomputable def cLoop (maxIter : Nat) (M e : ℝ) : Nat → Nat → Option ℝ → COut
  | 0, _, E => .value E
  | fuel + 1, count, E =>
    if unconverged M e E && decide (count < maxIter) then
      let E' := E.bind (danby M e)
      if count + 1 = maxIter then .exit else cLoop maxIter M e fuel (count + 1) E'
    else .value E

/-- `double kepler(double M, double e)`, /repo/src/kepler.c 19-58. The loop cannot run more than `MAX_ITER = 30` times, so 31 units of fuel
never run out. -/
noncomputable def cKepler (M e : ℝ) : COut := cLoop 30 M e 31 0 (some (cGuess M e))

/-- Mean anomaly, /repo/radvel/orbit.py 87, /repo/radvel/kepler.py 39, /repo/src/kepler.c 65-66. -/
noncomputable def meanAnomaly (t tp per : ℝ) : ℝ := 2 * π * ((t - tp) / per - ⌊(t - tp) / per⌋)

/-- True anomaly from the eccentric anomaly, /repo/radvel/orbit.py 90-92. -/
noncomputable def trueAnomalyOf (e E : ℝ) : ℝ := 2 * arctan (((1 + e) / (1 - e)) ^ (0.5 : ℝ) * tan (E / 2))

/-- NumPy velocity, /repo/radvel/kepler.py 57 and 61. -/
noncomputable def rvNumpy (e om k E : ℝ) : ℝ := k * (cos (trueAnomalyOf e E + om) + e * cos om)

/-- C velocity, /repo/src/kepler.c 72-74 with `cosom = cos om`, `sinom = sin om` (_kepler.pyx 44-45). -/
noncomputable def rvC (e om k E : ℝ) : ℝ :=
  let ratio := √((1 + e) / (1 - e)) * tan (E / 2)
  let fac := 2 / (1 + ratio * ratio)
  k * (cos om * (fac - 1) - ratio * fac * sin om + e * cos om)

/-- The circular shortcut, /repo/radvel/kepler.py 38-40. -/
noncomputable def rvCircular (t per tp om k : ℝ) : ℝ := k * cos (meanAnomaly t tp per + om)

/-- `rv_drive` for one time, /repo/radvel/kepler.py 20-63; `solve M e` is the anomaly returned by the solver (`none`: it does not
return a number) and `formula e om k E` the velocity formula of the chosen implementation. -/
noncomputable def rvDrive (solve : ℝ → ℝ → Option ℝ) (formula : ℝ → ℝ → ℝ → ℝ → ℝ)
    (t per tp e om k : ℝ) : Option ℝ :=
  if e = 0 then some (rvCircular t per tp om k)
  else
    let per := if per < 0 then 1e-4 else per
    let e := if e < 0 then 0 else e
    let e := if e > 0.99 then 0.99 else e
    (solve (meanAnomaly t tp per) e).map (fun E => formula e om k E)

/-- The NumPy solver for one epoch. Models /repo/radvel/kepler.py 59-61. -/
noncomputable def npSolve (fuel : Nat) (M e : ℝ) : Option ℝ :=
  match npKepler fuel [(M, e)] with
  | some [some E] => some E
  | _ => none

/-- The C solver for one epoch. Models /repo/radvel/kepler.py 50-57. -/
noncomputable def cSolve (M e : ℝ) : Option ℝ :=
  match cKepler M e with
  | .value E => E
  | .exit => none

/-- Eccentric anomaly at true anomaly `f`, /repo/radvel/orbit.py 27, 56, 65. -/
noncomputable def eccAnomalyAt (f e : ℝ) : ℝ := 2 * arctan (tan (f / 2) * √((1 - e) / (1 + e)))

/-- `timetrans_to_timeperi`, /repo/radvel/orbit.py 6-30. -/
noncomputable def timetransToTimeperi (tc per e om : ℝ) : ℝ :=
  if e ≥ 1 then tc
  else
    let ee := eccAnomalyAt (π / 2 - om) e
    tc - per / (2 * π) * (ee - e * sin ee)

/-- `timeperi_to_timetrans`, /repo/radvel/orbit.py 33-69, for scalar arguments (then `ee` is always an `np.float64`, so line 60
applies unconditionally). -/
noncomputable def timeperiToTimetrans (tp per e om : ℝ) (secondary : Bool) : ℝ :=
  if e ≥ 1 then tp
  else
    let ee := if secondary then eccAnomalyAt (3 * π / 2 - om) e + 2 * π else eccAnomalyAt (π / 2 - om) e
    tp + per / (2 * π) * (ee - e * sin ee)

end Radvel
