import Verif.Model.RVLike
import Mathlib.LinearAlgebra.Matrix.NonsingularInverse
import Mathlib.LinearAlgebra.Matrix.PosDef
import Mathlib.Analysis.SpecialFunctions.Trigonometric.Basic

/-!
# `radvel/gp.py` and `radvel/likelihood.py` 418-651: Gaussian-process likelihoods

Numbers are exact reals; a matrix entry `none` is nan. Objects whose attributes change (`kernel.hparams`, `kernel.dist`, `kernel.covmatrix`, the shared parameter
dictionary) are threaded through every function, also when it raises, so that what a failed call leaves behind is visible.
-/

namespace Radvel
open Real

/-! ### covariance entries -/

/-- The kernels that build a matrix, /repo/radvel/gp.py 10-15 (the fourth, Celerite, is treated separately below). -/
inductive KernelKind | sqExp | per | quasiPer
  deriving DecidableEq, Repr

/-- Squared Euclidean distance of two times, `cdist(.., 'sqeuclidean')`, /repo/radvel/gp.py 119 and 299. -/
noncomputable def distSq (a b : ℝ) : ℝ := (a - b) ^ 2

/-- Euclidean distance, `cdist(.., 'euclidean')`, /repo/radvel/gp.py 205 and 298. -/
noncomputable def distAbs (a b : ℝ) : ℝ := |a - b|

/-- `amp**2 * np.exp(-self.dist/(length**2))`, /repo/radvel/gp.py 134. With `length = 0` the quotient is nan for coinciding times and `-inf` otherwise. -/
noncomputable def sqExpEntry (length amp : ℝ) (a b : ℝ) : Option ℝ :=
  if length = 0 then (if distSq a b = 0 then none else some 0)
  else some (amp ^ 2 * exp (-(distSq a b) / length ^ 2))

/-- `amp**2 * np.exp(-np.sin(np.pi*self.dist/per)**2. / (2.*length**2))`, /repo/radvel/gp.py 221. With `per = 0` the argument of the sine is nan or infinite; with
`length = 0` the quotient is nan where the sine vanishes. -/
noncomputable def perEntry (length amp per : ℝ) (a b : ℝ) : Option ℝ :=
  if per = 0 then none
  else
    let sn := sin (π * distAbs a b / per) ^ 2
    if length = 0 then (if sn = 0 then none else some 0)
    else some (amp ^ 2 * exp (-sn / (2 * length ^ 2)))

/-- `np.clip(x, -100, 100)`, /repo/radvel/gp.py 343-344. -/
noncomputable def clip100 (x : ℝ) : ℝ := max (-100) (min 100 x)

/-- `amp**2 * exp1 * exp2`, /repo/radvel/gp.py 339-351, for nonzero hyperparameters. -/
noncomputable def quasiEntry (perlength amp per explength : ℝ) (a b : ℝ) : Option ℝ :=
  some (amp ^ 2 * exp (clip100 (-(distSq a b) / explength ^ 2)) *
    exp (clip100 (-(sin (π * distAbs a b / per)) ^ 2 / (2 * perlength ^ 2))))

/-! ### matrices and kernels -/

/-- A two-dimensional array: its shape and its entries (those outside the shape are never read). Models /repo/radvel/gp.py 119, 134. -/
structure Mat where
  m : Nat
  n : Nat
  e : Nat → Nat → Option ℝ

/-- The array with one row per entry of `x1` and one column per entry of `x2`: `cdist(X1, X2)` followed by elementwise operations, /repo/radvel/gp.py 116-119. -/
noncomputable def Mat.table (f : ℝ → ℝ → Option ℝ) (x1 x2 : List ℝ) : Mat where
  m := x1.length
  n := x2.length
  e := fun i j => f (x1.getD i 0) (x2.getD j 0)

/-- Add `v[i]` at the diagonal entries. Models /repo/radvel/gp.py 139, 225, 335, 357. -/
noncomputable def Mat.addDiag (K : Mat) (v : List ℝ) : Mat :=
  { K with e := fun i j => if i = j then (K.e i j).map (· + v.getD i 0) else K.e i j }

/-- `self.covmatrix += (errors**2) * np.identity(K.shape[0])`, a `ValueError` (shapes that do not fit) being passed over, /repo/radvel/gp.py 137-141. `none` is the
scalar 0. Simplification: numpy's broadcasting of arrays of length one is not represented. -/
noncomputable def addErrors (K : Mat) : Option (List ℝ) → Mat
  | none => K
  | some es => if K.m = K.n ∧ es.length = K.m then K.addDiag (es.map (· ^ 2)) else K

/-- Attributes of a kernel object: `hparams` (slot name to value), the two lists of times the stored distances belong to, `covmatrix`. Models /repo/radvel/gp.py 88-95, 168-177, 253-264. -/
structure Kernel where
  kind : KernelKind
  hp : Dict (List Char) ℝ
  x1 : List ℝ
  x2 : List ℝ
  cov : Option Mat

/-- The keys of `hparams` of each kernel, /repo/radvel/gp.py 10-15. -/
def KernelKind.slots : KernelKind → List (List Char)
  | .sqExp => ["gp_length".toList, "gp_amp".toList]
  | .per => ["gp_length".toList, "gp_amp".toList, "gp_per".toList]
  | .quasiPer => ["gp_perlength".toList, "gp_amp".toList, "gp_per".toList, "gp_explength".toList]

/-- `'length' in par`. Used for /repo/radvel/gp.py 261. -/
def hasLength (par : List Char) : Bool := decide ("length".toList <:+: par)

/-- Whether the constructor puts the parameter named `par` into this slot: `par.startswith(slot)`, for `gp_per` of the quasi-periodic kernel also
`not 'length' in par`, /repo/radvel/gp.py 91-95, 171-177, 256-264. -/
def KernelKind.takes (kind : KernelKind) (slot par : List Char) : Bool :=
  slot.isPrefixOf par && !(decide (kind = .quasiPer) && decide (slot = "gp_per".toList) && hasLength par)

/-- The loop of the constructor, /repo/radvel/gp.py 90-95, 170-177, 255-264: one parameter against all slots. -/
noncomputable def KernelKind.assign (kind : KernelKind) (hp : Dict (List Char) ℝ) (p : Key × ℝ) : Dict (List Char) ℝ :=
  kind.slots.foldl (fun hp slot => if kind.takes slot p.1.render then hp.set slot p.2 else hp) hp

/-- `SqExpKernel.__init__`, `PerKernel.__init__`, `QuasiPerKernel.__init__`, /repo/radvel/gp.py 88-109, 168-192, 253-281: exactly as many hyperparameters as slots,
and every slot found. -/
noncomputable def Kernel.new (kind : KernelKind) (hparams : Dict Key ℝ) : Except PyErr Kernel :=
  let hp := hparams.foldl kind.assign []
  if hparams.length ≠ kind.slots.length then .error .assertionError
  else if kind.slots.all (fun slot => hp.has slot) then .ok { kind := kind, hp := hp, x1 := [], x2 := [], cov := none }
  else .error .keyError

/-- `compute_distances`, /repo/radvel/gp.py 116-119, 202-205, 295-299. -/
def Kernel.setDistances (k : Kernel) (x1 x2 : List ℝ) : Kernel := { k with x1 := x1, x2 := x2 }

/-- `self.hparams[slot].value`; the constructor has made sure that the slot exists. Models /repo/radvel/gp.py 131-132, 217-219, 311-314. -/
noncomputable def Kernel.par (k : Kernel) (slot : String) : ℝ := (k.hp.get? slot.toList).getD 0

/-- `self.covmatrix = K`, the errors added in place, and `return self.covmatrix`, /repo/radvel/gp.py 136-143, 222-229, 353-361. -/
noncomputable def Kernel.store (k : Kernel) (K : Mat) (errors : Option (List ℝ)) : Kernel × Except PyErr Mat :=
  ({ k with cov := some (addErrors K errors) }, .ok (addErrors K errors))

/-- The branch for a disabled quasi-periodic GP, /repo/radvel/gp.py 329-336: `n = len(self.dist_se)`, an `n x n` matrix, returned without being stored. The sum with
`errors**2` fails if the lengths differ (a list of length one would be broadcast; not represented). -/
noncomputable def Kernel.disabled (k : Kernel) (errors : Option (List ℝ)) : Kernel × Except PyErr Mat :=
  let K : Mat := { m := k.x1.length, n := k.x1.length, e := fun _ _ => some 0 }
  match errors with
  | none => (k, .ok K)
  | some es => if es.length = K.m then (k, .ok (K.addDiag (es.map (· ^ 2)))) else (k, .error .valueError)

/-- `compute_covmatrix`, /repo/radvel/gp.py 121-143 (squared exponential), 207-229 (periodic), 301-361 (quasi-periodic). The values are finite reals, so the
`np.isfinite` tests always pass. -/
noncomputable def Kernel.computeCov (k : Kernel) (errors : Option (List ℝ)) : Kernel × Except PyErr Mat :=
  match k.kind with
  | .sqExp => k.store (Mat.table (sqExpEntry (k.par "gp_length") (k.par "gp_amp")) k.x1 k.x2) errors
  | .per => k.store (Mat.table (perEntry (k.par "gp_length") (k.par "gp_amp") (k.par "gp_per")) k.x1 k.x2) errors
  | .quasiPer =>
    let perlength := k.par "gp_perlength"
    let amp := k.par "gp_amp"
    let per := k.par "gp_per"
    let explength := k.par "gp_explength"
    if amp < 0 ∨ per < 0 ∨ explength < 0 ∨ perlength < 0 then (k, .error .valueError)
    else if amp = 0 ∨ per = 0 ∨ explength = 0 ∨ perlength = 0 then k.disabled errors
    else k.store (Mat.table (quasiEntry perlength amp per explength) k.x1 k.x2) errors

/-! ### the likelihood -/

/-- Attributes of a `GPLikelihood` besides its kernel, /repo/radvel/likelihood.py 431-451: `rv` has no decorrelation parameters. -/
structure GPLike where
  rv : RVLike
  hnames : List Key

/-- What an evaluation reads and changes: dictionary and vector (shared with everything else) and the kernel object. Models /repo/radvel/likelihood.py 444-460. -/
structure GPState where
  st : VState ℝ
  kernel : Kernel

/-- The times of the data. Models /repo/radvel/likelihood.py 450. -/
def GPLike.x (G : GPLike) : List ℝ := G.rv.obs.map Obs.t

/-- `self.params[k]` in the comprehension of /repo/radvel/likelihood.py 445; of the `Parameter` only the value is needed here. -/
noncomputable def lookupPar (s : VState ℝ) (k : Key) : Except PyErr (Key × ℝ) :=
  match s.params.items.get? k with
  | some q => .ok (k, q.value)
  | none => .error .keyError

/-- `GPLikelihood.__init__`, /repo/radvel/likelihood.py 431-451. -/
noncomputable def GPLike.new (s : VState ℝ) (obs : List Obs) (hnames : List Key) (suffix : String) (kind : KernelKind) :
    Except PyErr (GPLike × GPState) :=
  match RVLike.new s obs suffix [] [] with
  | .error e => .error e
  | .ok (s', L) =>
    match hnames.mapM (lookupPar s') with
    | .error e => .error e
    | .ok hs =>
      match Kernel.new kind (Dict.update [] hs) with
      | .error e => .error e
      | .ok kernel =>
        let G : GPLike := { rv := L, hnames := hnames }
        .ok (G, { st := s', kernel := kernel.setDistances G.x G.x })

/-- `hparams_key[0] + '_' + hparams_key[1]` of `key.split('_')`, /repo/radvel/likelihood.py 458-459. -/
def hparamsKey (name : List Char) : Except PyErr (List Char) :=
  match splitU name with
  | a :: b :: _ => .ok (a ++ '_' :: b)
  | _ => .error .indexError

/-- One turn of the loop of `update_kernel_params`, /repo/radvel/likelihood.py 456-460. The kernel's entry is the `Parameter` object of the dictionary, so its `value`
changes there too. Simplification: the user has not put a new object under this key since the likelihood was constructed. -/
noncomputable def GPLike.updateKey (G : GPLike) (acc : GPState) (key : Key) : Except PyErr GPState :=
  if key ∉ G.hnames then .ok acc
  else
    match hparamsKey key.render with
    | .error e => .error e
    | .ok slot =>
      if acc.kernel.hp.has slot then
        match acc.st.indices.get? key with
        | none => .error .keyError
        | some i =>
          match acc.st.rows[i]? with
          | none => .error .indexError
          | some r =>
            .ok { st := { acc.st with params :=
                    match acc.st.params.items.get? key with
                    | some q => acc.st.params.setItem key { q with value := r.value }
                    | none => acc.st.params }
                  kernel := { acc.kernel with hp := acc.kernel.hp.set slot r.value } }
      else .error .keyError

/-- Run `f` over a list until it raises; the state is what was reached. Used for /repo/radvel/likelihood.py 456-460. -/
def runLoop {σ β : Type} (f : σ → β → Except PyErr σ) : σ → List β → σ × Except PyErr Unit
  | a, [] => (a, .ok ())
  | a, b :: t =>
    match f a b with
    | .error e => (a, .error e)
    | .ok a' => runLoop f a' t

/-- `update_kernel_params`, /repo/radvel/likelihood.py 453-460. -/
noncomputable def GPLike.update (G : GPLike) (g : GPState) : GPState × Except PyErr Unit := runLoop G.updateKey g g.st.indices.keys

/-- `_resids`, /repo/radvel/likelihood.py 462-467; `none` is nan. -/
noncomputable def GPLike.resids (mod : Curve) (G : GPLike) (s : VState ℝ) : Except PyErr (List (Option ℝ)) := do
  let g ← readRow s G.rv.gammaIdx
  let pts ← G.rv.points mod s
  return pts.map (fun p => p.2.map (fun m => p.1.y - g.value - m))

/-- The real matrix of an array of shape `n x n`. Used for /repo/radvel/likelihood.py 501-507. -/
noncomputable def Mat.real (K : Mat) (m n : Nat) : Matrix (Fin m) (Fin n) ℝ := fun i j => (K.e i j).getD 0

/-- The symmetric matrix that `cho_factor` works with: it reads the upper triangle only. Used for /repo/radvel/likelihood.py 501, 542. -/
noncomputable def Mat.upper (K : Mat) (n : Nat) : Matrix (Fin n) (Fin n) ℝ := fun i j => if i ≤ j then K.real n n i j else K.real n n j i

/-- The vector of a list. Used for /repo/radvel/likelihood.py 501-507, 528. -/
noncomputable def vec (n : Nat) (r : List (Option ℝ)) : Fin n → ℝ := fun i => ((r.getD i none).getD 0)

/-- The array contains nan. Used for /repo/radvel/likelihood.py 534-537. -/
def Mat.hasNan (K : Mat) : Prop := ∃ i j : Nat, i < K.m ∧ j < K.n ∧ K.e i j = none

open Classical Matrix in
/-- `cho_solve(cho_factor(K), r)`, `slogdet` and the sum, /repo/radvel/likelihood.py 497-509. nan in `K` or `r`, a `K` that is not square, lengths that do not fit and a
`K` that is not positive definite raise `LinAlgError` or `ValueError`, which give `-inf`; `slogdet` of a singular matrix is `-inf`. -/
noncomputable def gpValue (N : Nat) (r : List (Option ℝ)) (K : Mat) : Fl :=
  if K.m = K.n ∧ r.length = K.m ∧ ¬ K.hasNan ∧ none ∉ r ∧ (K.upper K.n).PosDef then
    if (K.real K.n K.n).det = 0 then .pos
    else .fin (-0.5 * (vec K.n r ⬝ᵥ ((K.upper K.n)⁻¹ *ᵥ vec K.n r) + log |(K.real K.n K.n).det| + N * log (2 * π)))
  else .neg

/-- `GPLikelihood.logprob`, /repo/radvel/likelihood.py 477-513. `K = self.kernel.covmatrix` is what was last stored; if nothing was, `cho_factor(None)` raises `ValueError`
inside the `try`. -/
noncomputable def GPLike.logprob (mod : Curve) (G : GPLike) (g : GPState) : GPState × Except PyErr Fl :=
  match G.update g with
  | (g, .error e) => (g, .error e)
  | (g, .ok _) =>
    match G.resids mod g.st, G.rv.errorbars g.st with
    | .error e, _ => (g, .error e)
    | _, .error e => (g, .error e)
    | .ok r, .ok es =>
      match g.kernel.computeCov (some es) with
      | (k, .error e) => ({ g with kernel := k }, .error e)
      | (k, .ok _) =>
        ({ g with kernel := k },
          .ok (match k.cov with
            | none => .neg
            | some K => gpValue G.rv.obs.length r K))

open Classical Matrix in
/-- `np.dot(Ks, cho_solve(L, r))`, /repo/radvel/likelihood.py 543-544. -/
noncomputable def predictMean (K Ks : Mat) (r : List (Option ℝ)) : Fin Ks.m → ℝ :=
  Ks.real Ks.m K.n *ᵥ ((K.upper K.n)⁻¹ *ᵥ vec K.n r)

open Classical Matrix in
/-- `np.diag(Kss - np.dot(Ks, cho_solve(L, Ks.T)))`, /repo/radvel/likelihood.py 546-549. -/
noncomputable def predictVar (K Ks Kss : Mat) : Fin Ks.m → ℝ :=
  fun i => Kss.real Ks.m Ks.m i i - (Ks.real Ks.m K.n * ((K.upper K.n)⁻¹ * (Ks.real Ks.m K.n)ᵀ)) i i

/-- `np.sqrt`: nan of a negative number. Used for /repo/radvel/likelihood.py 550. -/
noncomputable def npSqrt (x : ℝ) : Option ℝ := if x < 0 then none else some √x

open Classical in
/-- `GPLikelihood.predict`, /repo/radvel/likelihood.py 515-555, for at least one observation. An exception leaves the distances as they are at that point. -/
noncomputable def GPLike.predict (mod : Curve) (G : GPLike) (xpred : List ℝ) (g : GPState) : GPState × Except PyErr (List ℝ × List (Option ℝ)) :=
  match G.update g with
  | (g, .error e) => (g, .error e)
  | (g, .ok _) =>
    match G.resids mod g.st with
    | .error e => (g, .error e)
    | .ok r =>
      let k := g.kernel.setDistances G.x G.x
      match G.rv.errorbars g.st with
      | .error e => ({ g with kernel := k }, .error e)
      | .ok es =>
        match k.computeCov (some es) with
        | (k, .error e) => ({ g with kernel := k }, .error e)
        | (k, .ok K) =>
          if K.hasNan then ({ g with kernel := k }, .error .valueError)
          else
            match (k.setDistances xpred G.x).computeCov none with
            | (k, .error e) => ({ g with kernel := k }, .error e)
            | (k, .ok Ks) =>
              if ¬ (K.upper K.n).PosDef then ({ g with kernel := k }, .error .linAlgError)
              else if none ∈ r ∨ r.length ≠ K.n ∨ Ks.n ≠ K.n then ({ g with kernel := k }, .error .valueError)
              else
                match (k.setDistances xpred xpred).computeCov none with
                | (k, .error e) => ({ g with kernel := k }, .error e)
                | (k, .ok Kss) =>
                  if Ks.hasNan then ({ g with kernel := k }, .error .valueError)
                  else
                    ({ g with kernel := k.setDistances G.x G.x },
                      .ok (List.ofFn (predictMean K Ks r), (List.ofFn (predictVar K Ks Kss)).map npSqrt))

/-- `GPLikelihood.residuals`, /repo/radvel/likelihood.py 469-475. -/
noncomputable def GPLike.residuals (mod : Curve) (G : GPLike) (g : GPState) : GPState × Except PyErr (List (Option ℝ)) :=
  match G.predict mod G.x g with
  | (g, .error e) => (g, .error e)
  | (g, .ok (mu, _)) =>
    match G.resids mod g.st with
    | .error e => (g, .error e)
    | .ok r => (g, .ok (r.zipWith (fun r m => r.map (· - m)) mu))

/-! ### celerite -/

/-- The arrays `self.real[0]` and `self.complex[0]` (the entries that are used), /repo/radvel/gp.py 423-439. -/
structure CeleriteCoeffs where
  aReal : ℝ
  cReal : ℝ
  aComp : ℝ
  bComp : ℝ
  cComp : ℝ
  dComp : ℝ

/-- `compute_real_and_complex_hparams`, /repo/radvel/gp.py 423-439. Divisions by zero are not represented. -/
noncomputable def celeriteCoeffs (B C L Prot : ℝ) : CeleriteCoeffs where
  aReal := B * (1 + C) / (2 + C)
  cReal := 1 / L
  aComp := B / (2 + C)
  bComp := 0
  cComp := 1 / L
  dComp := 2 * π / Prot

/-- The covariance function that the package `celerite` attaches to such coefficients at lag `tau` (Foreman-Mackey et al. 2017, eq. 9): the meaning of the arguments of
`solver.compute`, /repo/radvel/gp.py 482-489. The package itself is not modelled. -/
noncomputable def CeleriteCoeffs.term (c : CeleriteCoeffs) (tau : ℝ) : ℝ :=
  c.aReal * exp (-c.cReal * tau) + (c.aComp * exp (-c.cComp * tau) * cos (c.dComp * tau) + c.bComp * exp (-c.cComp * tau) * sin (c.dComp * tau))

/-- Attributes of a `CeleriteLikelihood` that its evaluation passes on: the times in the kernel and the data. Models /repo/radvel/likelihood.py 577-589. -/
structure CelLike where
  kernelX : List ℝ
  obs : List Obs

/-- `CeleriteLikelihood.__init__`, /repo/radvel/likelihood.py 577-589: the kernel receives the times (451, gp.py 462) before the data are put into the order of
`np.argsort(self.x)`. Simplification: a stable sort. -/
noncomputable def CelLike.new (obs : List Obs) : CelLike where
  kernelX := obs.map Obs.t
  obs := obs.mergeSort (fun a b => decide (a.t ≤ b.t))

/-- What `solver.compute` and `solver.dot_solve` receive at each position: time, velocity, uncertainty; /repo/radvel/likelihood.py 596-599 and gp.py 481-488 (the
residual of position `i` is computed from `self.x[i]`, `self.y[i]`, its variance from `self.yerr[i]`). -/
noncomputable def CelLike.solverInput (c : CelLike) : List (ℝ × Obs) := c.kernelX.zip c.obs

end Radvel
