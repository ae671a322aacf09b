import Verif.Model.Kepler

/-!
# `rv_drive` with rounded operations

The same functions as in `Verif.Model.Kepler`, with every operation replaced by one that may round: `radvel/kepler.py` 20-110, `radvel/orbit.py` 87-92, `src/kepler.c`, `src/_kepler.pyx`.
Not modelled: overflow (all values are real numbers; a division by zero is `none`, as in `Verif.Model.Kepler`).
-/

namespace Radvel

/-- Half a unit in the last place of a double between 1 and 2: the relative error of one operation. Models the `float64` type, e.g. /repo/src/_kepler.pyx 17-20. -/
noncomputable def unitRound : ℝ := 1 / 2 ^ 53

/-- Half of the smallest positive double: the error of a product or quotient that underflows. Models the `float64` type, e.g. /repo/src/_kepler.pyx 17-20. -/
noncomputable def tiny : ℝ := 1 / 2 ^ 1075

/-- The operations that the code uses on doubles (/repo/radvel/kepler.py 20-110, /repo/src/kepler.c 5-76): values only, any function on the reals. `lit` is the double that stands for a number in the source text. -/
structure Ops where
  add : ℝ → ℝ → ℝ
  sub : ℝ → ℝ → ℝ
  mul : ℝ → ℝ → ℝ
  div : ℝ → ℝ → ℝ
  sqrt : ℝ → ℝ
  sin : ℝ → ℝ
  cos : ℝ → ℝ
  tan : ℝ → ℝ
  arctan : ℝ → ℝ
  lit : ℝ → ℝ

variable (A : Ops)

/-- `2 * np.pi * (((t - tp) / per) - np.floor((t - tp) / per))`, /repo/radvel/kepler.py 39, /repo/radvel/orbit.py 87, /repo/src/kepler.c 65-66. `floor` of a double is a double. -/
noncomputable def Ops.meanAnomaly (t tp per : ℝ) : ℝ :=
  let phase := A.div (A.sub t tp) per
  A.mul (A.mul 2 (A.lit Real.pi)) (A.sub phase ⌊phase⌋)

/-- `E - ecc*sin(E) - M`, /repo/radvel/kepler.py 80 and 103; /repo/src/kepler.c 32 and 48. -/
noncomputable def Ops.fi (M e E : ℝ) : ℝ := A.sub (A.sub E (A.mul e (A.sin E))) M

/-- One correction, /repo/radvel/kepler.py 92-101 and /repo/src/kepler.c 38-46; vanishing denominators as in `danby`. -/
noncomputable def Ops.danby (M e E : ℝ) : Option ℝ :=
  let fi := A.fi M e E
  let fip := A.sub 1 (A.mul e (A.cos E))
  let fipp := A.mul e (A.sin E)
  let fippp := A.sub 1 fip
  if fip = 0 then none
  else
    let d1 := A.div (-fi) fip
    let den2 := A.add fip (A.div (A.mul d1 fipp) 2)
    if den2 = 0 then if fippp < 0 then some E else none
    else
      let d2 := A.div (-fi) den2
      let den3 := A.add (A.add fip (A.div (A.mul d2 fipp) 2)) (A.div (A.mul (A.mul d2 d2) fippp) 6)
      if den3 = 0 then none
      else some (A.add E (A.div (-fi) den3))

/-- `np.abs(fiarr) > conv`, /repo/radvel/kepler.py 75, 81 and 104; /repo/src/kepler.c 22 and 33. -/
noncomputable def Ops.unconverged (M e : ℝ) : Option ℝ → Bool
  | some E => decide (|A.fi M e E| > A.lit 1e-12)
  | none => false

/-- `while nd > 0` for one epoch, /repo/radvel/kepler.py 85-105 (entries do not influence each other, C20); outer `none`: still running. -/
noncomputable def Ops.npLoop (M e : ℝ) : Nat → Option ℝ → Option (Option ℝ)
  | fuel, E =>
    if A.unconverged M e E then
      match fuel with
      | 0 => none
      | n + 1 => Ops.npLoop M e n (E.bind (A.danby M e))
    else some E

/-- `kepler(Marr, eccarr)` for one epoch, /repo/radvel/kepler.py 66-110. -/
noncomputable def Ops.npSolve (fuel : Nat) (M e : ℝ) : Option ℝ :=
  (A.npLoop M e fuel (some (A.add M (A.mul (A.mul (SignType.sign (A.sin M) : ℝ) (A.lit 0.85)) e)))).join

/-- The loop of the C solver, /repo/src/kepler.c 33-55. -/
noncomputable def Ops.cLoop (maxIter : Nat) (M e : ℝ) : Nat → Nat → Option ℝ → COut
  | 0, _, E => .value E
  | fuel + 1, count, E =>
    if A.unconverged M e E && decide (count < maxIter) then
      if count + 1 = maxIter then .exit else Ops.cLoop maxIter M e fuel (count + 1) (E.bind (A.danby M e))
    else .value E

/-- `kepler(M, e)` in C, /repo/src/kepler.c 19-58. -/
noncomputable def Ops.cSolve (M e : ℝ) : Option ℝ :=
  match A.cLoop 30 M e 31 0 (some (A.add M (A.mul (A.mul (cSign (A.sin M)) (A.lit 0.85)) e))) with
  | .value E => E
  | .exit => none

/-- `(n1 / n2)**0.5 * np.tan(e1 / 2.0)`, /repo/radvel/orbit.py 90-92; `sqrt((1 + e)/(1 - e))*tan ( E / 2 )`, /repo/src/kepler.c 72. -/
noncomputable def Ops.ratio (e E : ℝ) : ℝ := A.mul (A.sqrt (A.div (A.add 1 e) (A.sub 1 e))) (A.tan (A.div E 2))

/-- NumPy velocity, /repo/radvel/orbit.py 92 and /repo/radvel/kepler.py 57 and 61. -/
noncomputable def Ops.rvNumpy (e om k E : ℝ) : ℝ :=
  A.mul k (A.add (A.cos (A.add (A.mul 2 (A.arctan (A.ratio e E))) om)) (A.mul e (A.cos om)))

/-- C velocity, /repo/src/kepler.c 72-74, /repo/src/_kepler.pyx 44-45. -/
noncomputable def Ops.rvC (e om k E : ℝ) : ℝ :=
  let ratio := A.ratio e E
  let fac := A.div 2 (A.add 1 (A.mul ratio ratio))
  let cosom := A.cos om
  let sinom := A.sin om
  A.mul k (A.add (A.sub (A.mul cosom (A.sub fac 1)) (A.mul (A.mul ratio fac) sinom)) (A.mul e cosom))

/-- `rv_drive` for one time, /repo/radvel/kepler.py 20-63. -/
noncomputable def Ops.rvDrive (solve : ℝ → ℝ → Option ℝ) (formula : ℝ → ℝ → ℝ → ℝ → ℝ) (t per tp e om k : ℝ) : Option ℝ :=
  if e = 0 then some (A.mul k (A.cos (A.add (A.meanAnomaly t tp per) om)))
  else
    let per := if per < 0 then A.lit 1e-4 else per
    let e := if e < 0 then 0 else e
    let e := if e > A.lit 0.99 then A.lit 0.99 else e
    (solve (A.meanAnomaly t tp per) e).map (fun E => formula e om k E)

end Radvel
