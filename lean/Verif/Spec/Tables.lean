import Verif.Spec.Chains
import Verif.Spec.Kepler

/-! Specification vocabulary for the samples of the report (C171) and conversions of tables (C172). -/

namespace Radvel
open Real

/-- The value of a parameter in row `j`: the sample, or the value in the posterior if the parameter was not sampled. -/
def rowValue {n : Nat} (chains : Chain n) (post : Params ℝ) (j : Fin n) (k : Key) : Option ℝ :=
  match chains.get? k with
  | some col => some (col j)
  | none => (post.items.get? k).map Parameter.value

/-- The parameters `r` are those of row `j`. -/
structure IsReportRow {n : Nat} (chains : Chain n) (post : Params ℝ) (j : Fin n) (r : Params ℝ) : Prop where
  basis : r.basis = post.basis
  planets : r.numPlanets = post.numPlanets
  nodup : r.items.keys.Nodup
  vals : ∀ x ∈ post.basis.words, ∀ m, IsPlanet post m → valueOf r x m = rowValue chains post j (.orb x m)

/-- `t` is a time of inferior conjunction of the orbit `s`: the true anomaly plus the argument of periastron is a quarter turn. -/
def IsConjunction (s : Synth) (t : ℝ) : Prop :=
  ∃ E ν, ∃ i : ℤ, IsEccAnomaly s.e (2 * π * (t - s.tp) / s.per) E ∧ IsTrueAnomaly s.e E ν ∧ ν + s.w = π / 2 + i * (2 * π)

/-- The parameters `p`, in the basis `per tp e w k`, are those of row `j` of a table. -/
structure IsCells {n : Nat} (f : Frame n) (j : Fin n) (p : Params ℝ) : Prop where
  complete : Complete p
  basis : p.basis = .perTpEWK
  names : p.planetParameters = BasisName.words .perTpEWK
  vals : ∀ x ∈ BasisName.words .perTpEWK, ∀ m, IsPlanet p m → ∃ v, f.at (.orb x m) j = some (some v) ∧ valueOf p x m = some v

end Radvel
