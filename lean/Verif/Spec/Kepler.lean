import Mathlib.Analysis.SpecialFunctions.Trigonometric.Arctan

/-!
Exact two-body quantities, independent of the code (specification for C16-C24).
-/

namespace Radvel
open Real

/-- `E` is an eccentric anomaly of mean anomaly `M`: Kepler's equation. -/
def IsEccAnomaly (e M E : ℝ) : Prop := E - e * sin E = M

/-- Cosine of the true anomaly at eccentric anomaly `E`. -/
noncomputable def cosNu (e E : ℝ) : ℝ := (cos E - e) / (1 - e * cos E)

/-- Sine of the true anomaly at eccentric anomaly `E`. -/
noncomputable def sinNu (e E : ℝ) : ℝ := √(1 - e ^ 2) * sin E / (1 - e * cos E)

/-- `ν` is the true anomaly at eccentric anomaly `E`. -/
def IsTrueAnomaly (e E ν : ℝ) : Prop := cos ν = cosNu e E ∧ sin ν = sinNu e E

/-- Radial velocity `k (cos(ν+ω) + e cos ω)` written with the sine and cosine of the true anomaly. -/
noncomputable def exactVel (e om k E : ℝ) : ℝ :=
  k * (cosNu e E * cos om - sinNu e E * sin om + e * cos om)

end Radvel
