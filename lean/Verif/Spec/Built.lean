import Verif.Model.Like

/-!
Which parameter sets and model/vector states a user can reach (specification side of C01-C08).
-/

namespace Radvel

variable {α : Type}

/-- Parameter sets a user builds: `Parameters(N, basis)` for a five-parameter basis, then assignments to existing keys,
to `dvdt`/`curv` and to keys beginning with `gamma`, `jit`, `logjit`, `gp`. -/
inductive UserParams : Params α → Prop
  | new (dflt : α) (N : Nat) (b : BasisName) (letters : Option (Dict Nat String)) (hb : b ≠ .perTcTpEWK) :
      UserParams (Params.init dflt N b letters)
  | set (p : Params α) (k : Key) (v : Parameter α) (h : UserParams p)
      (hk : k ∈ p.items.keys ∨ k = .dvdt ∨ k = .curv ∨ ∃ g r, k = .inst g r) (hv : v.vary ≠ .blank) :
      UserParams (p.setItem k v)

/-- States reachable by creating a model from such a parameter set and then, in any order and number:
constructing likelihoods (with any non-orbital extra and decorrelation keys), editing existing parameters or the trend
keys in the dictionary, writing any values into the vector, and copying between dictionary and vector. -/
inductive Built [Zero α] : VState α → Prop
  | model (p : Params α) (s : VState α) (h : UserParams p) (hs : VState.init p = .ok s) : Built s
  | like (s s' : VState α) (extra decorr : List Key) (h : Built s)
      (hk : ∀ k ∈ extra ++ decorr, ∀ p n, k ≠ .orb p n) (hs : s.addLikelihood extra decorr = .ok s') : Built s'
  | edit (s : VState α) (k : Key) (v : Parameter α) (h : Built s)
      (hk : k ∈ s.params.items.keys ∨ k = .dvdt ∨ k = .curv) (hv : v.vary ≠ .blank) :
      Built { s with params := s.params.setItem k v }
  | write (s : VState α) (rows : List (Row α)) (h : Built s) (hl : rows.length = s.rows.length) :
      Built { s with rows := rows }
  | toVector (s s' : VState α) (h : Built s) (hs : s.dictToVector = .ok s') : Built s'
  | toDict (s s' : VState α) (h : Built s) (hs : s.vectorToDict = .ok s') : Built s'

/-- The vector rows agree with the dictionary: each parameter's own row carries its four attributes. -/
def Synced [Zero α] (s : VState α) : Prop :=
  ∀ k q, s.params.items.get? k = some q → ∃ i r, s.indices.get? k = some i ∧ s.rows[i]? = some r ∧
    r.value = q.value ∧ (r.vary = true ↔ q.vary = .yes) ∧ r.scale = q.mcmcscale.getD 0 ∧ r.linear = q.linear

/-- Every key has a row of its own. -/
def RowsOwned (s : VState α) : Prop :=
  (∀ k ∈ s.params.items.keys, ∃ i, s.indices.get? k = some i ∧ i < s.rows.length) ∧
  (∀ k ∈ s.params.items.keys, ∀ k' ∈ s.params.items.keys, s.indices.get? k = s.indices.get? k' → k = k')

/-- `names[i]` is the key whose row is `i`, for every row. -/
def NamesLabelRows (s : VState α) : Prop :=
  s.names.length = s.rows.length ∧
  (∀ i k, s.names[i]? = some k → s.indices.get? k = some i) ∧
  (∀ k ∈ s.params.items.keys, ∃ i : Nat, s.names[i]? = some k)

end Radvel
