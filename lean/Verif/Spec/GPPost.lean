import Verif.Model.GPPost
import Verif.Spec.FileModel
import Verif.Spec.GP

/-!
The posterior of a setup file with Gaussian processes (specification side of C155): histories, hyperparameters and densities.
-/

namespace Radvel

/-- The posterior after an evaluation by a sampler or optimiser (also after one that raised an exception). -/
noncomputable def GPPost.run (mod : Curve) (p : GPPost) : PostCall → GPPost
  | .logprobArray xs => (p.logprobArray mod xs).1
  | .likelihoodNsArray xs => (p.likelihoodNsArray mod xs).1

/-- The posterior after any number of evaluations. -/
noncomputable def GPPost.runAll (mod : Curve) (p : GPPost) (calls : List PostCall) : GPPost := calls.foldl (GPPost.run mod) p

/-- The hyperparameters `h` of a kernel whose parameters in the file are called `hnames`, when the free parameters have the values `xs`. -/
def HyperOf (p : Params ℝ) (xs : List ℝ) (hnames : List Key) (kind : KernelKind) (h : String → ℝ) : Prop :=
  ∀ slot : String, slot.toList ∈ kind.slots → ∃ k ∈ hnames, Named slot.toList k.render ∧ h slot = valueAt p xs k

/-- The observations of an instrument. -/
noncomputable def obsOf (P : SetupFile) (i : String) : List Obs := (P.data.filter fun r => r.tel = i).map DataRow.obs

/-- The covariance matrix of the velocities of an instrument: the kernel, and error² + jitter² on the diagonal. -/
noncomputable def covOf (P : SetupFile) (xs : List ℝ) (kind : KernelKind) (h : String → ℝ) (i : String) : Matrix (Fin (obsOf P i).length) (Fin (obsOf P i).length) ℝ :=
  dataCov kind h (obsOf P i) (valueAt P.params xs (.inst .jit ("_" ++ i)))

/-- The density of the velocities of an instrument around `m` and the offset: a multivariate normal one. -/
noncomputable def gpDensity (P : SetupFile) (xs : List ℝ) (kind : KernelKind) (h : String → ℝ) (m : ℝ → ℝ) (i : String) : ℝ :=
  mvnDensity (covOf P xs kind h i) fun j => (obsOf P i)[j].y - valueAt P.params xs (.inst .gamma ("_" ++ i)) - m (obsOf P i)[j].t

end Radvel
