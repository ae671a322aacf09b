import Verif.Model.GP
import Verif.Spec.RVLike

/-!
Which GP likelihoods and states a user can reach, the documented covariance functions, and the multivariate normal density (specification side of C35-C40, C85-C88).
-/

namespace Radvel
open Real

/-- The parameter name `name` belongs to the hyperparameter `slot` by the scheme `gp_NAME` or `gp_NAME_SUFFIX` (/repo/radvel/gp.py 47-48). -/
def Named (slot name : List Char) : Prop := name = slot ∨ ∃ rest, name = slot ++ '_' :: rest

/-- Names that follow the scheme. -/
def WellNamed (kind : KernelKind) (hnames : List Key) : Prop := ∀ k ∈ hnames, ∃ slot ∈ kind.slots, Named slot k.render

/-- The kernel's hyperparameters are given by `h`. -/
def Kernel.Has (k : Kernel) (h : String → ℝ) : Prop := ∀ slot : String, slot.toList ∈ k.kind.slots → k.hp.get? slot.toList = some (h slot)

/-- The current value of a hyperparameter: column 0 of its own row of the vector. -/
def GPLike.Hyper (G : GPLike) (s : VState ℝ) (slot : String) (v : ℝ) : Prop :=
  ∃ k ∈ G.hnames, Named slot.toList k.render ∧ ∃ i r, s.indices.get? k = some i ∧ s.rows[i]? = some r ∧ r.value = v

/-- States of a GP likelihood `G` that a user can reach: construct it on a model (possibly with other likelihoods), then in any order construct more likelihoods, edit
parameters, write values into the vector, copy between dictionary and vector, and evaluate `logprob`, `predict` and `residuals`, whether or not they raise. -/
inductive GPReach (mod : Curve) (G : GPLike) : GPState → List RVLike → Prop
  | new (s : VState ℝ) (Ls : List RVLike) (g : GPState) (h : Likes s Ls) (obs : List Obs) (hnames : List Key) (suffix : String) (kind : KernelKind)
      (hG : GPLike.new s obs hnames suffix kind = .ok (G, g)) : GPReach mod G g (Ls ++ [G.rv])
  | like (g : GPState) (Ls : List RVLike) (h : GPReach mod G g Ls) (s' : VState ℝ) (L : RVLike) (obs : List Obs) (suffix : String) (vars : List String)
      (keys : List (List Char)) (hL : RVLike.new g.st obs suffix vars keys = .ok (s', L)) : GPReach mod G { g with st := s' } (Ls ++ [L])
  | edit (g : GPState) (Ls : List RVLike) (h : GPReach mod G g Ls) (k : Key) (v : Parameter ℝ)
      (hk : k ∈ g.st.params.items.keys ∨ k = .dvdt ∨ k = .curv) (hv : v.vary ≠ .blank) :
      GPReach mod G { g with st := { g.st with params := g.st.params.setItem k v } } Ls
  | write (g : GPState) (Ls : List RVLike) (h : GPReach mod G g Ls) (rows : List (Row ℝ)) (hl : rows.length = g.st.rows.length) :
      GPReach mod G { g with st := { g.st with rows := rows } } Ls
  | toVector (g : GPState) (Ls : List RVLike) (h : GPReach mod G g Ls) (s' : VState ℝ) (hs : g.st.dictToVector = .ok s') : GPReach mod G { g with st := s' } Ls
  | toDict (g : GPState) (Ls : List RVLike) (h : GPReach mod G g Ls) (s' : VState ℝ) (hs : g.st.vectorToDict = .ok s') : GPReach mod G { g with st := s' } Ls
  | logprob (g : GPState) (Ls : List RVLike) (h : GPReach mod G g Ls) : GPReach mod G (G.logprob mod g).1 Ls
  | predict (g : GPState) (Ls : List RVLike) (h : GPReach mod G g Ls) (xpred : List ℝ) : GPReach mod G (G.predict mod xpred g).1 Ls
  | residuals (g : GPState) (Ls : List RVLike) (h : GPReach mod G g Ls) : GPReach mod G (G.residuals mod g).1 Ls

/-- Evaluations in any order: `logprob` (whether or not it raises), `predict` and `residuals` without exceptions, and writing other values into the vector. -/
inductive GPRun (mod : Curve) (G : GPLike) : GPState → GPState → Prop
  | start (g : GPState) : GPRun mod G g g
  | logprob (g g' : GPState) (h : GPRun mod G g g') : GPRun mod G g (G.logprob mod g').1
  | predict (g g' g'' : GPState) (h : GPRun mod G g g') (xpred : List ℝ) (p : List ℝ × List (Option ℝ)) (hp : G.predict mod xpred g' = (g'', .ok p)) : GPRun mod G g g''
  | residuals (g g' g'' : GPState) (h : GPRun mod G g g') (r : List (Option ℝ)) (hp : G.residuals mod g' = (g'', .ok r)) : GPRun mod G g g''
  | write (g g' : GPState) (h : GPRun mod G g g') (rows : List (Row ℝ)) (hl : rows.length = g'.st.rows.length) :
      GPRun mod G g { g' with st := { g'.st with rows := rows } }

/-- What the theorems about `logprob` and `predict` take as given: the values of the hyperparameters (`h`), of gamma and of the jitter in the vector, and the values of the
model at the data times. -/
structure GPContext (mod : Curve) (G : GPLike) (g : GPState) (h : String → ℝ) (γ jit : ℝ) (M : ℝ → ℝ) : Prop where
  hyper : ∀ slot : String, slot.toList ∈ g.kernel.kind.slots → G.Hyper g.st slot (h slot)
  gamma : ∃ r, g.st.rows[G.rv.gammaIdx]? = some r ∧ r.value = γ
  jitter : ∃ r, g.st.rows[G.rv.jitIdx]? = some r ∧ r.value = jit
  model : ∀ o ∈ G.rv.obs, mod g.st o.t = .ok (some (M o.t))

/-- The stored distances are those between the data times. -/
def GPState.AtData (G : GPLike) (g : GPState) : Prop := g.kernel.x1 = G.x ∧ g.kernel.x2 = G.x

/-- The model does not read the values in the dictionary (only its shape). `RVModel` does not (`modelCall_dictFree`). -/
def Curve.DictFree (mod : Curve) : Prop :=
  ∀ s s' : VState ℝ, s'.rows = s.rows → s'.indices = s.indices → s'.params.basis = s.params.basis → s'.params.numPlanets = s.params.numPlanets →
    ∀ t, mod s' t = mod s t

/-- The covariance functions, with the hyperparameters given by name: /repo/radvel/gp.py 66-72, 146-152, 231-238. (The documentation of the periodic kernel squares the
period; the code does not, and neither does this. The exponents of the quasi-periodic kernel are cut off at -100, gp.py 342-344.) -/
noncomputable def gpCov (kind : KernelKind) (h : String → ℝ) (a b : ℝ) : ℝ :=
  match kind with
  | .sqExp => h "gp_amp" ^ 2 * exp (-(|a - b| ^ 2 / h "gp_length" ^ 2))
  | .per => h "gp_amp" ^ 2 * exp (-(sin (π * |a - b| / h "gp_per") ^ 2 / (2 * h "gp_length" ^ 2)))
  | .quasiPer => h "gp_amp" ^ 2 * exp (-(min 100 (|a - b| ^ 2 / h "gp_explength" ^ 2)) - min 100 (sin (π * |a - b| / h "gp_per") ^ 2 / (2 * h "gp_perlength" ^ 2)))

/-- Hyperparameters for which the matrix is defined by the formula: nothing is divided by zero, and the quasi-periodic kernel is not disabled. -/
def Regular (kind : KernelKind) (h : String → ℝ) : Prop :=
  match kind with
  | .sqExp => h "gp_length" ≠ 0
  | .per => h "gp_length" ≠ 0 ∧ h "gp_per" ≠ 0
  | .quasiPer => 0 < h "gp_amp" ∧ 0 < h "gp_per" ∧ 0 < h "gp_explength" ∧ 0 < h "gp_perlength"

/-- The covariance matrix of the data: kernel plus measurement error and jitter on the diagonal. -/
noncomputable def dataCov (kind : KernelKind) (h : String → ℝ) (obs : List Obs) (jit : ℝ) : Matrix (Fin obs.length) (Fin obs.length) ℝ :=
  fun i j => gpCov kind h obs[i].t obs[j].t + if i = j then obs[i].err ^ 2 + jit ^ 2 else 0

open Matrix in
/-- The density of the centred multivariate normal distribution with covariance matrix `C` at `r`. -/
noncomputable def mvnDensity {n : Nat} (C : Matrix (Fin n) (Fin n) ℝ) (r : Fin n → ℝ) : ℝ :=
  exp (-(r ⬝ᵥ (C⁻¹ *ᵥ r)) / 2) / √((2 * π) ^ n * C.det)

end Radvel
