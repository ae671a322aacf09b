import Verif.Model.OrbitPlot
import Verif.Spec.Basis

/-! Specification vocabulary for the RV figure (C140-C144). -/

namespace Radvel
open Real

/-- The ephemeris of planet `n`: its transit time if the parameters have one, else its time of periastron. -/
noncomputable def ephemeris (p : Params ℝ) (orb : Nat → Synth) (n : Nat) : ℝ := (valueOf p .tc n).getD (orb n).tp

/-- The orbital phase of time `t`, in `[0, 1)`. -/
noncomputable def orbPhase (t0 per t : ℝ) : ℝ := Int.fract ((t - t0) / per)

/-- The trend at time `t`. -/
noncomputable def trendTerm (p : Params ℝ) (tb t : ℝ) : ℝ := trendOf p .dvdt * (t - tb) + trendOf p .curv * (t - tb) ^ 2

/-- The jitter of a likelihood's instrument in the dictionary. -/
noncomputable def jitterOf (p : Params ℝ) (L : RVLike) : ℝ := ((p.items.get? (.inst .jit L.suffix)).map Parameter.value).getD 0

/-- The name of an instrument: the suffix of its parameters without the underscore in front. -/
def instrumentName (suffix : String) : List Char := if suffix.toList.head? = some '_' then suffix.toList.tail else suffix.toList

/-- All observations, likelihood by likelihood. -/
def allObs (Ls : List RVLike) : List (RVLike × Obs) := Ls.flatMap (fun L => L.obs.map (fun o => (L, o)))

/-- A point whose phase is in `[-1/2, 1/2)`, the default horizontal axis. -/
def FoldPoint.Central (x : FoldPoint) : Prop := ∃ φ, x.phase = some φ ∧ -1 / 2 ≤ φ ∧ φ < 1 / 2

/-- The parameter of an offset found analytically: it is `linear` and does not vary. -/
def Analytic (q : Parameter ℝ) : Prop := q.linear = true ∧ q.vary ≠ .yes

/-- The mean. -/
noncomputable def meanReal (l : List ℝ) : ℝ := l.sum / l.length

/-- The standard error of the mean: root mean square deviation divided by the root of the number of values. -/
noncomputable def stdErrReal (l : List ℝ) : ℝ := √((l.map (fun y => (y - meanReal l) ^ 2)).sum / l.length) / √l.length

end Radvel
