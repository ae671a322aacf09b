import Verif.Spec.FileModel

/-!
# Specification for C154 with decorrelation

The posterior that a setup file defines when `--decorr` is given.
-/

namespace Radvel
open Real

/-- The documented name of the coefficient of the variable `d` for the instrument `i`: `c1_<d>_<i>`. -/
def coefKey (i d : String) : Key := .other ("c1_" ++ d ++ ("_" ++ i))

/-- The coefficients that decorrelation with the variables `vars` adds: for each instrument, one for each variable. -/
def coefKeys (insts vars : List String) : List Key := insts.flatMap fun i => vars.map (coefKey i)

/-- The values `c` of the coefficients, in this order. -/
def coefVals (insts vars : List String) (c : String → String → ℝ) : List ℝ := insts.flatMap fun i => vars.map (c i)

/-- Variables for which decorrelation works (C31): different names without `_`, and none of them occurs within the name of another's coefficient. -/
structure CleanVars (insts vars : List String) : Prop where
  nodup : vars.Nodup
  noU : ∀ d ∈ vars, '_' ∉ d.toList
  clean : ∀ i ∈ insts, ∀ d ∈ vars, ∀ d' ∈ vars, d.toList <:+: ("c1_" ++ d' ++ ("_" ++ i)).toList → d' = d

/-- What decorrelation is meant to subtract from a row of an instrument whose rows are `rows`: each variable's deviation from its mean, times its coefficient; variables with missing values
are left out. -/
noncomputable def rowTerm (rows : List DataRow) (vars : List String) (c : String → ℝ) (r : DataRow) : ℝ :=
  ((vars.filter fun d => rows.all fun x => (x.dec d.toList).isFinite).map fun d => c d * ((r.dec d.toList).toReal - mean (rows.map fun x => (x.dec d.toList).toReal))).sum

/-- The velocities of the instrument `i` with the decorrelation terms subtracted. -/
noncomputable def decorrRows (P : SetupFile) (vars : List String) (c : String → String → ℝ) (i : String) : List DataRow :=
  let rows := P.data.filter fun r => r.tel = i
  rows.map fun r => { r with y := r.y - rowTerm rows vars (c i) r }

open Classical in
/-- The density of an instrument's decorrelated observations: integrated over the offset if that is marginalised. -/
noncomputable def decorrDensity (P : SetupFile) (vars : List String) (c : String → String → ℝ) (xs : List ℝ) (m : ℝ → ℝ) (i : String) : ℝ :=
  if Marginalised P.params (.inst .gamma ("_" ++ i)) then ∫ g : ℝ, rowsDensity (decorrRows P vars c i) m (valueAt P.params xs (.inst .jit ("_" ++ i))) g
  else rowsDensity (decorrRows P vars c i) m (valueAt P.params xs (.inst .jit ("_" ++ i))) (valueAt P.params xs (.inst .gamma ("_" ++ i)))

open Classical in
/-- The wrong factor of C27: for a marginalised offset `exp(-(Σ d/σ²)²/(2 Σ 1/σ²))`, where `d` is what decorrelation subtracts. -/
noncomputable def decorrBias (P : SetupFile) (vars : List String) (c : String → String → ℝ) (xs : List ℝ) (i : String) : ℝ :=
  let rows := P.data.filter fun r => r.tel = i
  let jit := valueAt P.params xs (.inst .jit ("_" ++ i))
  if Marginalised P.params (.inst .gamma ("_" ++ i)) then
    exp (-((rows.map fun r => rowTerm rows vars (c i) r / (r.err ^ 2 + jit ^ 2)).sum ^ 2 / (2 * (rows.map fun r => 1 / (r.err ^ 2 + jit ^ 2)).sum)))
  else 1

end Radvel
