import Verif.Model.Rounded
import Verif.Model.Basis

/-!
# `RVModel.__call__` with rounded operations

The same functions as in `Verif.Model.Basis`, with sums, differences and products that may round: `radvel/model.py` 283-295 and 322-357.
Simplified: the conversion to the basis `per tp e w k` is that of `Verif.Model.Basis`, without rounding (in that basis there is no conversion, /repo/radvel/basis.py 150-151).
-/

namespace Radvel

variable (A : Ops)

/-- Sum of two velocities; `none` is nan. Used for /repo/radvel/model.py 292-294, 343. -/
def Ops.addNan (a b : Option ℝ) : Option ℝ :=
  match a, b with
  | some x, some y => some (A.add x y)
  | _, _ => none

/-- `rv_drive` as a `Drive`. Models /repo/radvel/model.py 343. -/
noncomputable def Ops.driveOf (solve : ℝ → ℝ → Option ℝ) (formula : ℝ → ℝ → ℝ → ℝ → ℝ) : Drive :=
  fun t s => A.rvDrive solve formula t s.per s.tp s.e s.w s.k

/-- One turn of the loop of `_standard_rv_calc` for planet `i + 1`, /repo/radvel/model.py 330-343. -/
def Ops.addPlanet (drive : Drive) (t : ℝ) (synthRows : List (Row ℝ)) (vel : Option ℝ) (i : Nat) : Except PyErr (Option ℝ) :=
  match synthRows[5 * i]?, synthRows[5 * i + 1]?, synthRows[5 * i + 2]?, synthRows[5 * i + 3]?, synthRows[5 * i + 4]? with
  | some r0, some r1, some r2, some r3, some r4 =>
    .ok (A.addNan vel (drive t ⟨r0.value, r1.value, r2.value, r3.value, r4.value⟩))
  | _, _, _, _, _ => .error .indexError

/-- `_standard_rv_calc` at one time, /repo/radvel/model.py 322-344; `planet = some i` is `planet_num = i + 1`. -/
noncomputable def Ops.standardRvCalc (drive : Drive) (t : ℝ) (s : VState ℝ) (planet : Option Nat) : Except PyErr (Option ℝ) := do
  let synthRows ← vToSynth s.params.basis s.params.numPlanets s.rows
  let planets := match planet with
    | none => List.range s.params.numPlanets
    | some i => [i]
  planets.foldlM (A.addPlanet drive t synthRows) (some 0)

/-- `GeneralRVModel.__call__` of an `RVModel` at one time, /repo/radvel/model.py 283-295 and 347-357. NumPy squares by one product. -/
noncomputable def Ops.modelCall (drive : Drive) (timeBase : ℝ) (s : VState ℝ) (planet : Option Nat) (t : ℝ) : Except PyErr (Option ℝ) := do
  let vel ← A.standardRvCalc drive t s planet
  let dvdt ← trendCoef s .dvdt
  let curv ← trendCoef s .curv
  return A.addNan (A.addNan vel (some (A.mul dvdt (A.sub t timeBase)))) (some (A.mul curv (A.mul (A.sub t timeBase) (A.sub t timeBase))))

end Radvel
