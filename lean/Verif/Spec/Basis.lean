import Verif.Model.Basis

/-!
Specification vocabulary for the basis conversions and the RV model (C10-C14, C25).
-/

namespace Radvel
open Real

/-- The value stored under `x` for planet `m`, if the key exists. -/
def valueOf (p : Params ℝ) (x : PName) (m : Nat) : Option ℝ := (p.items.get? (.orb x m)).map Parameter.value

/-- `m` is a planet number of `p`. -/
def IsPlanet (p : Params ℝ) (m : Nat) : Prop := 1 ≤ m ∧ m ≤ p.numPlanets

/-- `p` is a dictionary (distinct keys) that contains every key of its basis. -/
def Complete (p : Params ℝ) : Prop :=
  p.items.keys.Nodup ∧ ∀ x ∈ p.basis.words, ∀ m, IsPlanet p m → Key.orb x m ∈ p.items.keys

/-- The synth quantities stored for planet `m`. -/
structure SynthPlanet (p : Params ℝ) (m : Nat) (s : Synth) : Prop where
  per : valueOf p .per m = some s.per
  tp : valueOf p .tp m = some s.tp
  e : valueOf p .e m = some s.e
  w : valueOf p .w m = some s.w
  k : valueOf p .k m = some s.k

/-- Two orbits with the same elements, the argument of periastron being an angle. -/
def SameOrbit (s s' : Synth) : Prop :=
  s'.per = s.per ∧ s'.tp = s.tp ∧ s'.e = s.e ∧ s'.k = s.k ∧ ∃ n : ℤ, s'.w = s.w + n * (2 * π)

/-- The two velocity formulas of the code. -/
def CodeFormula (formula : ℝ → ℝ → ℝ → ℝ → ℝ) : Prop := formula = rvNumpy ∨ formula = rvC

/-- A physical orbit: positive period and amplitude, `0 ≤ e < 1`; for a circular orbit `π/2 - w` is not an odd multiple of `π`
(where `tan` in `orbit.py` has its pole; no rational `w` is excluded). -/
structure PhysOrbit (s : Synth) : Prop where
  per : 0 < s.per
  e0 : 0 ≤ s.e
  e1 : s.e < 1
  k : 0 < s.k
  pole : s.e = 0 → cos ((π / 2 - s.w) / 2) ≠ 0

/-- The value of a trend coefficient: zero if it is not in the dictionary. -/
noncomputable def trendOf (p : Params ℝ) (key : Key) : ℝ := ((p.items.get? key).map Parameter.value).getD 0

/-- Velocity predicted by a freshly built `RVModel(p, time_base)`. -/
noncomputable def curve (drive : Drive) (timeBase : ℝ) (p : Params ℝ) (t : ℝ) : Except PyErr (Option ℝ) :=
  match VState.init p with
  | .error e => .error e
  | .ok s => modelCall drive timeBase s none t

/-- Pairs of bases whose conversion neither leaves behind keys of the old basis nor needs a key of the synth basis that
the input does not have; the target is a fitting basis other than `logper tp e w logk`. -/
def CleanPair (b t : BasisName) : Prop :=
  t ≠ .perTcTpEWK ∧ t ≠ .logperTpEWLogk ∧
  (∀ x ∈ t.words, x ∈ BasisName.words .perTpEWK → x ∈ b.words) ∧
  (∀ x ∈ b.words, x ∉ BasisName.words .perTpEWK → x ∈ t.words)

instance (b t : BasisName) : Decidable (CleanPair b t) := by unfold CleanPair; infer_instance

end Radvel
