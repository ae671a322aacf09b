import Verif.Spec.Stats
import Verif.Model.Prior
import Verif.Model.Like

/-!
# `radvel/likelihood.py` 182-415 and 654-672: white-noise likelihoods, composites, information criteria

Numbers are exact reals; log probabilities are `Fl` (with infinities and nan). Evaluating a likelihood may write the analytically found `gamma` into the vector,
so every function returns the new state.
-/

namespace Radvel
open Real

/-- What a likelihood needs of its model: `model(t)` for the current vector; `none` is nan. `fun s t => modelCall drive tb s none t` for an `RVModel`
(/repo/radvel/model.py 283-295). Arrays of times are evaluated elementwise. -/
abbrev Curve := VState ℝ → ℝ → Except PyErr (Option ℝ)

/-- One observation: an entry of `x`, `y`, `yerr` and of each decorrelation vector, /repo/radvel/likelihood.py 30-33 and 340. Simplification: the arrays all have
the same length, so they are stored row by row. -/
structure Obs where
  t : ℝ
  y : ℝ
  err : ℝ
  dec : List Char → Fl := fun _ => .nan

/-- Attributes of an `RVLikelihood`, /repo/radvel/likelihood.py 329-353: `decVars` are the keys of the dictionary `decorr_vectors`, `decParams` is
`self.decorr_params`. -/
structure RVLike where
  suffix : String
  obs : List Obs
  decVars : List (List Char) := []
  decParams : List String := []
  gammaIdx : Nat
  jitIdx : Nat

/-- `'c1_'+d+suffix`, /repo/radvel/likelihood.py 345. -/
def decorrName (suffix : String) (d : String) : String := "c1_" ++ d ++ suffix

/-- `RVLikelihood.__init__`, /repo/radvel/likelihood.py 329-353. `decorr_vectors` has exactly the keys `decVars`. -/
noncomputable def RVLike.new (s : VState ℝ) (obs : List Obs) (suffix : String) (decorrVars : List String) (decVars : List (List Char)) :
    Except PyErr (VState ℝ × RVLike) :=
  let names := decorrVars.map (decorrName suffix)
  match s.addLikelihood [.inst .gamma suffix, .inst .jit suffix] (names.map Key.other) with
  | .error e => .error e
  | .ok s' =>
    match s'.indices.get? (.inst .gamma suffix), s'.indices.get? (.inst .jit suffix) with
    | some g, some j => .ok (s', { suffix := suffix, obs := obs, decVars := decVars, decParams := names, gammaIdx := g, jitIdx := j })
    | _, _ => .error .keyError

/-- `self.vector.vector[i]`. Models /repo/radvel/likelihood.py 361-366, 391. -/
def readRow (s : VState ℝ) (i : Nat) : Except PyErr (Row ℝ) :=
  match s.rows[i]? with
  | some r => .ok r
  | none => .error .indexError

/-- `vector[gamma_index][3] and not vector[gamma_index][1]`, /repo/radvel/likelihood.py 361 and 410-411. -/
def Row.analytic (r : Row ℝ) : Bool := r.linear && !r.vary

/-- `yerr**2 + jit**2` for one observation, /repo/radvel/likelihood.py 362-363, 391, 412 and 667. -/
noncomputable def Obs.var (o : Obs) (jit : ℝ) : ℝ := o.err ^ 2 + jit ^ 2

open Classical in
/-- `ztil`, /repo/radvel/likelihood.py 362-365. The quotient is nan, replaced by 0, exactly when there are no data (0/0), some variance is 0 (x/inf with
x infinite or nan) or some model value is nan. -/
noncomputable def weightedOffset (pts : List (Obs × Option ℝ)) (jit : ℝ) : ℝ :=
  if pts = [] ∨ (∃ p ∈ pts, p.1.var jit = 0) ∨ (∃ p ∈ pts, p.2 = none) then 0
  else (pts.map (fun p => (p.1.y - p.2.getD 0) / p.1.var jit)).sum / (pts.map (fun p => 1 / p.1.var jit)).sum

/-- `str.split('_')`. Used for /repo/radvel/likelihood.py 372. -/
def splitU : List Char → List (List Char)
  | [] => [[]]
  | c :: t => if c = '_' then [] :: splitU t else
    match splitU t with
    | [] => [[c]]
    | h :: r => (c :: h) :: r

/-- `np.poly1d(pars)(x)`, highest power first, /repo/radvel/likelihood.py 380-381. -/
def poly1d (pars : List ℝ) (x : ℝ) : ℝ := pars.foldl (fun acc c => acc * x + c) 0

/-- `x` of a finite number. Used for /repo/radvel/likelihood.py 654-672. -/
def Fl.toReal : Fl → ℝ
  | .fin x => x
  | _ => 0

/-- `pars`: the coefficients of all decorrelation parameters whose name contains `var`, then 0, /repo/radvel/likelihood.py 373-377. -/
noncomputable def RVLike.pars (L : RVLike) (s : VState ℝ) (var : List Char) : Except PyErr (List ℝ) :=
  match readPars s ((L.decParams.filter (fun par => decide (var <:+: par.toList))).map Key.other) with
  | .error e => .error e
  | .ok ps => .ok (ps ++ [0])

/-- One turn of the loop over `decorr_params`, /repo/radvel/likelihood.py 371-381. -/
noncomputable def RVLike.decorrStep (L : RVLike) (s : VState ℝ) (res : List (Option ℝ)) (parname : String) : Except PyErr (List (Option ℝ)) :=
  match (splitU parname.toList)[1]? with
  | none => .error .indexError
  | some var =>
    match L.pars s var with
    | .error e => .error e
    | .ok pars =>
      if var ∉ L.decVars then .error .keyError
      else if L.obs.all (fun o => (o.dec var).isFinite) then
        let v := L.obs.map (fun o => (o.dec var).toReal)
        .ok (res.zipWith (fun r x => r.map (· - poly1d pars (x - mean v))) v)
      else .ok res

/-- `self.model(self.x)`, /repo/radvel/likelihood.py 359. -/
def RVLike.points (mod : Curve) (L : RVLike) (s : VState ℝ) : Except PyErr (List (Obs × Option ℝ)) :=
  L.obs.mapM (fun o => match mod s o.t with
    | .ok m => .ok (o, m)
    | .error e => .error e)

/-- `RVLikelihood.residuals`, /repo/radvel/likelihood.py 355-382; `none` is nan. -/
noncomputable def RVLike.residuals (mod : Curve) (L : RVLike) (s : VState ℝ) : Except PyErr (VState ℝ × List (Option ℝ)) := do
  let pts ← L.points mod s
  let g ← readRow s L.gammaIdx
  let j ← readRow s L.jitIdx
  let gamma := if g.analytic then weightedOffset pts j.value else g.value
  let s' := if g.analytic then { s with rows := s.rows.set L.gammaIdx { g with value := gamma } } else s
  let res := pts.map (fun p => p.2.map (fun m => p.1.y - gamma - m))
  let res ← L.decParams.foldlM (L.decorrStep s') res
  return (s', res)

/-- `RVLikelihood.errorbars`, /repo/radvel/likelihood.py 384-391. -/
noncomputable def RVLike.errorbars (L : RVLike) (s : VState ℝ) : Except PyErr (List ℝ) := do
  let j ← readRow s L.jitIdx
  return L.obs.map (fun o => √(o.var j.value))

open Classical in
/-- `loglike_jitter`, /repo/radvel/likelihood.py 654-672. A zero variance makes both terms infinite (or nan) and the result nan; so does a nan residual. -/
noncomputable def loglikeJitter (res : List (Option ℝ)) (var : List ℝ) : Fl :=
  if (∃ v ∈ var, v = 0) ∨ none ∈ res then .nan
  else
    let penalty := (var.map (fun v => log √(2 * π * v))).sum
    let chi2 := (res.zipWith (fun r v => (r.getD 0) ^ 2 / v) var).sum
    .fin (-0.5 * chi2 - penalty)

open Classical in
/-- `np.log(np.sqrt(2*np.pi*sigz))` with `sigz = 1/np.sum(1/(yerr**2 + jit**2))`, /repo/radvel/likelihood.py 412-413. Without data `sigz` is infinite; a zero
variance makes it 0. -/
noncomputable def marginalTerm (var : List ℝ) : Fl :=
  if ∃ v ∈ var, v = 0 then .neg
  else if var = [] then .pos
  else Fl.log √(2 * π * (1 / (var.map (fun v => 1 / v)).sum))

/-- `RVLikelihood.logprob`, /repo/radvel/likelihood.py 393-415. -/
noncomputable def RVLike.logprob (mod : Curve) (L : RVLike) (s : VState ℝ) : Except PyErr (VState ℝ × Fl) := do
  let j ← readRow s L.jitIdx
  let (s', res) ← L.residuals mod s
  let var := L.obs.map (fun o => o.var j.value)
  let loglike := loglikeJitter res var
  let g ← readRow s' L.gammaIdx
  return (s', if g.analytic then loglike + marginalTerm var else loglike)

/-! ### composites -/

/-- One turn of the loop of `CompositeLikelihood.logprob`, /repo/radvel/likelihood.py 291-293, for any kind of member. -/
noncomputable def compositeStep (acc : VState ℝ × Fl) (like : VState ℝ → Except PyErr (VState ℝ × Fl)) : Except PyErr (VState ℝ × Fl) :=
  match like acc.1 with
  | .error e => .error e
  | .ok (s', v) => .ok (s', acc.2 + v)

/-- `CompositeLikelihood.logprob`, /repo/radvel/likelihood.py 287-294. -/
noncomputable def compositeLogprob (likes : List (VState ℝ → Except PyErr (VState ℝ × Fl))) (s : VState ℝ) : Except PyErr (VState ℝ × Fl) :=
  likes.foldlM compositeStep (s, 0)

/-- `CompositeLikelihood.residuals`, /repo/radvel/likelihood.py 296-305. -/
noncomputable def compositeResiduals (mod : Curve) : List RVLike → VState ℝ → Except PyErr (VState ℝ × List (Option ℝ))
  | [], s => .ok (s, [])
  | L :: t, s =>
    match L.residuals mod s with
    | .error e => .error e
    | .ok (s', r) =>
      match compositeResiduals mod t s' with
      | .error e => .error e
      | .ok (s'', r') => .ok (s'', r ++ r')

/-- `CompositeLikelihood.errorbars`, /repo/radvel/likelihood.py 307-315. -/
noncomputable def compositeErrorbars : List RVLike → VState ℝ → Except PyErr (List ℝ)
  | [], _ => .ok []
  | L :: t, s =>
    match L.errorbars s with
    | .error e => .error e
    | .ok r =>
      match compositeErrorbars t s with
      | .error e => .error e
      | .ok r' => .ok (r ++ r')

/-- The attributes of a member that `CompositeLikelihood.__init__` collects; `hnames = none`: no GP. Models /repo/radvel/likelihood.py 241-267. -/
structure Member where
  x : List ℝ
  y : List ℝ
  yerr : List ℝ
  telvec : List String
  gammaParam : Key
  hnames : Option (List Key)

/-- The arrays of a `CompositeLikelihood`. Models /repo/radvel/likelihood.py 241-285. -/
structure CompositeData where
  x : List ℝ
  y : List ℝ
  yerr : List ℝ
  telvec : List String
  hnames : List Key

/-- One turn of the loop of `CompositeLikelihood.__init__`, /repo/radvel/likelihood.py 257-267. -/
noncomputable def compositeAppend (s : VState ℝ) (c : CompositeData) (m : Member) : Except PyErr CompositeData :=
  match readPar s m.gammaParam with
  | .error e => .error e
  | .ok g => .ok { x := c.x ++ m.x, y := c.y ++ m.y.map (· - g), yerr := c.yerr ++ m.yerr, telvec := c.telvec ++ m.telvec,
                   hnames := c.hnames ++ m.hnames.getD [] }

/-- `CompositeLikelihood.__init__`, /repo/radvel/likelihood.py 242-285. The members share the parameter dictionary and the vector, so the assertions of 273-280 hold
and are not represented; `extra_params`, `suffixes` and `uparams` (always `None`) are left out. -/
noncomputable def compositeInit (s : VState ℝ) : List Member → Except PyErr CompositeData
  | [] => .error .indexError
  | m :: t => t.foldlM (compositeAppend s) { x := m.x, y := m.y, yerr := m.yerr, telvec := m.telvec, hnames := [] }

/-! ### information criteria -/

/-- `-2.0 * x`. Used for /repo/radvel/likelihood.py 205, 219. -/
noncomputable def negTwo : Fl → Fl
  | .fin x => .fin (-2 * x)
  | .pos => .neg
  | .neg => .pos
  | .nan => .nan

/-- `np.log(n) * k`, /repo/radvel/likelihood.py 205: for `n = 0` it is `-inf * k`. -/
noncomputable def logTimes (n k : Nat) : Fl :=
  if n = 0 then (if k = 0 then .nan else .neg) else .fin (log n * k)

/-- `Likelihood.bic`, /repo/radvel/likelihood.py 196-206, with `k = len(self.get_vary_params())` and the value of `self.logprob()`. -/
noncomputable def bicOf (n k : Nat) (logprob : Fl) : Fl := logTimes n k + negTwo logprob

/-- `Likelihood.aic`, /repo/radvel/likelihood.py 208-230. -/
noncomputable def aicOf (n k : Nat) (logprob : Fl) : Fl :=
  let aic := negTwo logprob + .fin (2 * k)
  if (n : ℝ) - k - 1 > 0 then aic + .fin ((2 * k * (k + 1)) / (n - k - 1)) else .pos

/-- `Likelihood.bic`/`aic` on an object: the number of parameters comes from `get_vary_params()`, /repo/radvel/likelihood.py 203-204 and 217-218; then
`self.logprob()` is evaluated. -/
noncomputable def criterion (f : Nat → Nat → Fl → Fl) (like : VState ℝ → Except PyErr (VState ℝ × Fl)) (n : Nat) (l : LikeState ℝ) :
    Except PyErr Fl :=
  match l.getVaryParams with
  | (_, .error e) => .error e
  | (l', .ok xs) =>
    match like l'.st with
    | .error e => .error e
    | .ok (_, v) => .ok (f n xs.length v)

/-- `Likelihood.bic`. /repo/radvel/likelihood.py 196-206. -/
noncomputable def likeBic := criterion bicOf

/-- `Likelihood.aic`. /repo/radvel/likelihood.py 208-230. -/
noncomputable def likeAic := criterion aicOf

/-- `Posterior.bic`, /repo/radvel/posterior.py 210-213. -/
noncomputable def postBic (like : VState ℝ → Except PyErr (VState ℝ × Fl)) (n : Nat) (l : LikeState ℝ) : Except PyErr Fl := likeBic like n l

/-- `Posterior.aic`, /repo/radvel/posterior.py 215-218: `raise self.likelihood.aic()`. Raising a number is a `TypeError`. -/
noncomputable def postAic (like : VState ℝ → Except PyErr (VState ℝ × Fl)) (n : Nat) (l : LikeState ℝ) : Except PyErr Fl :=
  match likeAic like n l with
  | .error e => .error e
  | .ok _ => .error .typeError

end Radvel
