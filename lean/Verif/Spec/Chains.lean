import Verif.Model.Chains
import Verif.Spec.Basis

/-! Specification vocabulary for tables of samples (C122 and following). -/

namespace Radvel

/-- A cell of a table: `none` if there is no such column, `some none` if the cell is nan. -/
def Frame.at {n : Nat} (f : Frame n) (k : Key) (j : Fin n) : Option (Option ℝ) := (f.get? k).map (fun col => col j)

/-- The parameters `p` are those of row `j` of the samples. -/
def IsSample {n : Nat} (c : Chain n) (j : Fin n) (p : Params ℝ) : Prop :=
  ∀ x ∈ p.basis.words, ∀ m, IsPlanet p m → ∃ col, c.get? (.orb x m) = some col ∧ valueOf p x m = some (col j)

/-- The parameters `p` are those of row `j`: the fixed ones have the values of the posterior, the others those of the samples. -/
structure IsRow {n : Nat} (chains : Chain n) (post : Params ℝ) (j : Fin n) (p : Params ℝ) : Prop where
  basis : p.basis = post.basis
  planets : p.numPlanets = post.numPlanets
  nodup : p.items.keys.Nodup
  vals : ∀ x ∈ post.basis.words, ∀ m, IsPlanet post m → ∃ q, post.items.get? (.orb x m) = some q ∧ (q.vary ≠ .yes → valueOf p x m = some q.value) ∧
    (q.vary = .yes → ∃ col, chains.get? (.orb x m) = some col ∧ valueOf p x m = some (col j))

/-- In the rows of the samples, planet `i` has the orbits `s`. -/
def RowOrbits {n : Nat} (chains : Chain n) (post : Params ℝ) (i : Nat) (s : Fin n → Synth) : Prop :=
  ∀ j, ∃ p q dflt, IsRow chains post j p ∧ toSynth dflt p.basis true p = .ok q ∧ SynthPlanet q i (s j)

/-- A table with its rows in another order: row `j` is the old row `σ j`. -/
def reorder {n : Nat} {α : Type} (σ : Fin n → Fin n) (c : Dict Key (Fin n → α)) : Dict Key (Fin n → α) := c.map (fun x => (x.1, fun j => x.2 (σ j)))

end Radvel
