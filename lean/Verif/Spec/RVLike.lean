import Verif.Model.RVLike
import Verif.Spec.Built

/-!
Which likelihood objects and states a user can reach, and what the theorems about likelihoods assume of the model (specification side of C26-C34).
-/

namespace Radvel

/-- The likelihood object belongs to this state: its indices are those of its own parameters. -/
structure RVLike.On (L : RVLike) (s : VState ℝ) : Prop where
  gamma : s.indices.get? (.inst .gamma L.suffix) = some L.gammaIdx
  jit : s.indices.get? (.inst .jit L.suffix) = some L.jitIdx
  dec : ∀ p ∈ L.decParams, ∃ i, s.indices.get? (.other p) = some i

/-- States reachable with a list of likelihood objects: create a model, then in any order construct likelihoods (any data, suffix and decorrelation variables), edit
existing parameters, write any values into the vector, and copy between dictionary and vector. -/
inductive Likes : VState ℝ → List RVLike → Prop
  | start (s : VState ℝ) (h : Built s) : Likes s []
  | like (s s' : VState ℝ) (Ls : List RVLike) (L : RVLike) (h : Likes s Ls) (obs : List Obs) (suffix : String) (vars : List String) (keys : List (List Char))
      (hL : RVLike.new s obs suffix vars keys = .ok (s', L)) : Likes s' (Ls ++ [L])
  | edit (s : VState ℝ) (Ls : List RVLike) (k : Key) (v : Parameter ℝ) (h : Likes s Ls)
      (hk : k ∈ s.params.items.keys ∨ k = .dvdt ∨ k = .curv) (hv : v.vary ≠ .blank) :
      Likes { s with params := s.params.setItem k v } Ls
  | write (s : VState ℝ) (Ls : List RVLike) (rows : List (Row ℝ)) (h : Likes s Ls) (hl : rows.length = s.rows.length) : Likes { s with rows := rows } Ls
  | toVector (s s' : VState ℝ) (Ls : List RVLike) (h : Likes s Ls) (hs : s.dictToVector = .ok s') : Likes s' Ls
  | toDict (s s' : VState ℝ) (Ls : List RVLike) (h : Likes s Ls) (hs : s.vectorToDict = .ok s') : Likes s' Ls

/-- The model reads only the planets' and the trend's rows. `RVModel` does (`modelCall_orbital`); so does any forward model of the planets' parameters. -/
def Curve.Orbital (mod : Curve) : Prop :=
  ∀ s s' : VState ℝ, Built s → s'.params = s.params → s'.indices = s.indices → s'.rows.length = s.rows.length →
    (∀ i : Nat, i < 5 * s.params.numPlanets + 2 → s'.rows[i]? = s.rows[i]?) → ∀ t, mod s' t = mod s t

/-- The rows that evaluating likelihoods may overwrite: those of analytically marginalised gammas. -/
def AnalyticGamma (s : VState ℝ) (i : Nat) : Prop :=
  ∃ suffix r, s.indices.get? (.inst .gamma suffix) = some i ∧ s.rows[i]? = some r ∧ r.linear = true ∧ r.vary = false

/-- What decorrelation is meant to subtract from an observation (C31): each variable's deviation from its mean, times its coefficient; variables with missing values are left out. -/
noncomputable def decorrTerm (L : RVLike) (ds : List String) (c : String → ℝ) (o : Obs) : ℝ :=
  ((ds.filter (fun d => L.obs.all (fun o => (o.dec d.toList).isFinite))).map (fun d =>
    c d * ((o.dec d.toList).toReal - mean (L.obs.map (fun o => (o.dec d.toList).toReal))))).sum

/-- The decorrelation variables of a likelihood are `ds`, with the coefficients `c` in the dictionary, and are of the kind for which decorrelation works (C31): their names contain no `_`,
each occurs only in the name of its own coefficient, and the suffix starts with `_`. Without decorrelation `ds` is empty. -/
structure PlainDecorr (p : Params ℝ) (L : RVLike) (ds : List String) (c : String → ℝ) : Prop where
  params : L.decParams = ds.map (decorrName L.suffix)
  nodup : ds.Nodup
  keys : ∀ d ∈ ds, d.toList ∈ L.decVars
  noU : ∀ d ∈ ds, '_' ∉ d.toList
  suffix : ds ≠ [] → L.suffix = "" ∨ ∃ t, L.suffix.toList = '_' :: t
  clean : ∀ d ∈ ds, ∀ d' ∈ ds, d.toList <:+: (decorrName L.suffix d').toList → d' = d
  coef : ∀ d ∈ ds, ∃ q, p.items.get? (.other (decorrName L.suffix d)) = some q ∧ q.value = c d

end Radvel
