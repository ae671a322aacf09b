import Verif.Spec.Setup
import Verif.Spec.Basis
import Verif.Spec.History
import Mathlib.Probability.Distributions.Gaussian.Real

/-!
What a setup file says about the parameters of its posterior (specification side of C154): the order of the free ones, and the file with other values.
-/

namespace Radvel

open ProbabilityTheory

/-- Is this the key of an instrument? -/
def Key.ofInst : Key → Bool
  | .inst _ _ => true
  | _ => false

/-- The order of a file's parameters: the planets' ones in the order of the basis, `dvdt`, `curv`, then those of the instruments in the order of the file. -/
def fileOrder (p : Params ℝ) : List Key :=
  ((List.range p.numPlanets).flatMap fun i => p.basis.words.map fun x => Key.orb x (i + 1)) ++ [.dvdt, .curv] ++ p.items.keys.filter Key.ofInst

/-- Is the parameter free? -/
def isFree (p : Params ℝ) (k : Key) : Bool :=
  match p.items.get? k with
  | some q => decide (q.vary = .yes)
  | none => false

/-- The free parameters of a file in their order. -/
def freeOrder (p : Params ℝ) : List Key := (fileOrder p).filter (isFree p)

/-- The value of a parameter when the free ones have the values `xs`: the entry of `xs` at its place, or the value in the file. -/
noncomputable def valueAt (p : Params ℝ) (xs : List ℝ) (k : Key) : ℝ :=
  if isFree p k then xs.getD ((freeOrder p).idxOf k) 0 else ((p.items.get? k).map Parameter.value).getD 0

/-- The file with these values of the free parameters. -/
noncomputable def withFree (p : Params ℝ) (xs : List ℝ) : Params ℝ :=
  { p with items := p.items.map fun x => (x.1, { x.2 with value := valueAt p xs x.1 }) }

/-- The parameter is marginalised over: linear and fixed. -/
def Marginalised (p : Params ℝ) (k : Key) : Prop := ∃ q, p.items.get? k = some q ∧ q.linear = true ∧ q.vary = .no

/-- The prior is about parameters and planets of the file, and about no offset that is marginalised over. -/
structure Prior.OfFile (p : Params ℝ) (q : Prior) : Prop where
  known : ∀ k ∈ q.keys, k ∈ p.items.keys ∨ k = .dvdt ∨ k = .curv
  planets : ∀ n ∈ q.planets, 1 ≤ n ∧ n ≤ p.numPlanets
  gamma : ∀ suffix, Key.inst .gamma suffix ∈ q.keys → ¬ Marginalised p (.inst .gamma suffix)

/-- The velocity of the file's model: the planets' velocities `v` and the trend, with the values `xs` of the free parameters. -/
noncomputable def fileVelocity (p : Params ℝ) (xs : List ℝ) (tb : ℝ) (v : Nat → ℝ → ℝ) (t : ℝ) : ℝ :=
  ∑ m ∈ Finset.Icc 1 p.numPlanets, v m t + valueAt p xs .dvdt * (t - tb) + valueAt p xs .curv * (t - tb) ^ 2

/-- The density of the velocities of an instrument's observations around `m` with offset `γ` and jitter `jit`. -/
noncomputable def rowsDensity (rows : List DataRow) (m : ℝ → ℝ) (jit γ : ℝ) : ℝ :=
  (rows.map fun r => gaussianPDFReal (m r.t + γ) (r.err ^ 2 + jit ^ 2).toNNReal r.y).prod

open Classical in
/-- The density of an instrument's observations: integrated over the offset if that is marginalised. -/
noncomputable def instDensity (P : SetupFile) (xs : List ℝ) (m : ℝ → ℝ) (i : String) : ℝ :=
  if Marginalised P.params (.inst .gamma ("_" ++ i)) then ∫ g : ℝ, rowsDensity (P.data.filter fun r => r.tel = i) m (valueAt P.params xs (.inst .jit ("_" ++ i))) g
  else rowsDensity (P.data.filter fun r => r.tel = i) m (valueAt P.params xs (.inst .jit ("_" ++ i))) (valueAt P.params xs (.inst .gamma ("_" ++ i)))

/-- The file whose parameters are `d` and, instead of a parameter `logjit…` with the entries `q`, the jitter that it means. -/
noncomputable def SetupFile.withJit (P : SetupFile) (d : Dict Key (Parameter ℝ)) (suffix : String) (q : Parameter ℝ) : SetupFile :=
  { P with params := { P.params with items := d ++ [(.inst .jit suffix, { value := Real.exp q.value, vary := q.vary })] } }

/-- The offset `γ` of the instrument `i` about which its residuals are taken: the value of its parameter or, if that is marginalised, the offset that fits best. -/
def IsOffset (P : SetupFile) (xs : List ℝ) (m : ℝ → ℝ) (i : String) (γ : ℝ) : Prop :=
  (¬ Marginalised P.params (.inst .gamma ("_" ++ i)) → γ = valueAt P.params xs (.inst .gamma ("_" ++ i))) ∧
  (Marginalised P.params (.inst .gamma ("_" ++ i)) → ∀ x, rowsDensity (P.data.filter fun r => r.tel = i) m (valueAt P.params xs (.inst .jit ("_" ++ i))) x ≤
    rowsDensity (P.data.filter fun r => r.tel = i) m (valueAt P.params xs (.inst .jit ("_" ++ i))) γ)

/-- The effect on the logarithm of the density of an instrument of velocities that are wrong by `δ`: the sum over its observations of `(δ |r| + δ²/2) / σ²` with the residual `r` from the model `m` and the offset
`γ`, and `σ²` the variance including jitter. -/
noncomputable def velocityEffect (P : SetupFile) (xs : List ℝ) (m : ℝ → ℝ) (δ γ : ℝ) (i : String) : ℝ :=
  ((P.data.filter fun r => r.tel = i).map fun d => (δ * |d.y - m d.t - γ| + δ ^ 2 / 2) / (d.err ^ 2 + valueAt P.params xs (.inst .jit ("_" ++ i)) ^ 2)).sum

end Radvel
