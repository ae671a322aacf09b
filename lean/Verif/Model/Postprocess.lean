import Verif.Model.Chains
import Verif.Model.Numbers
import Verif.Model.MaxLike

/-!
# `radvel/driver.py` 253-311: what is made of the samples

Reals are exact. The messages, `final_residuals` and the reduced chi-square, which are only printed, are left out. At least one sample is assumed (with none, every quantile is nan).
-/

namespace Radvel
open Real

/-- `str(x)` of a float that is a decimal number: the shortest form with at least one decimal. Simplification: numbers from `1e16` on, which Python shows with an exponent, are shown like smaller ones; other numbers
do not occur. Used for /repo/radvel/utils.py 177-178. -/
noncomputable def strFloat (x : ℝ) : Dec :=
  open Classical in if h : ∃ d : Nat, ∃ m : ℤ, x * 10 ^ (d + 1) = m then ⟨⌊x * 10 ^ (Nat.find h + 1)⌋, -((Nat.find h : ℤ) + 1)⟩ else ⟨0, 0⟩

/-- `str(errlow)` after `sigfig`, /repo/radvel/utils.py 188-191: an integer if the branch for whole numbers was taken. -/
noncomputable def strAfter (err : Dec) : Dec :=
  if (err.exp = -1 ∧ err.lastZero = true) ∨ err.exp = 0 then ⟨truncInt (roundSig err.val 2), 0⟩ else err

/-- The three numbers reported for a parameter, `post.uparams`, `post.medparams`, `post.maxparams`. Models /repo/radvel/driver.py 301-303. -/
structure Reported where
  err : ℝ
  med : ℝ
  max : ℝ

/-- The two calls of `sigfig`, /repo/radvel/driver.py 298-300; `none`: the loop of `sigfig` is still running after `fuel` turns. -/
noncomputable def shownWith (fuel : Nat) (maxlike med err : ℝ) : Option Reported :=
  match sigfig fuel med (strFloat err) none with
  | none => none
  | some (med', _, _) =>
    match sigfig fuel maxlike (strAfter (strFloat err)) none with
    | none => none
    | some (max', err', _) => some ⟨err', med', max'⟩

/-- One turn of the loop over parameters, /repo/radvel/driver.py 289-303: `col` is the column of the converted samples. A nan (no number in the column) makes `round_sig` raise. Simplification: infinite values do not
occur. -/
noncomputable def report {n : Nat} (fuel : Nat) (maxlike : ℝ) (col : Fin n → Option ℝ) : Except PyErr (Option Reported) :=
  match quantile col 0.5, quantile col 0.841, quantile col 0.159 with
  | some med, some q84, some q16 =>
    let high := q84 - med
    let low := med - q16
    let err := roundSig ((high + low) / 2) 2
    if err > 0 then .ok (shownWith fuel maxlike med err) else .ok (some ⟨err, med, maxlike⟩)
  | _, _, _ => .error .valueError

/-- `synthchains[par] = vector[indices[par]][0]` for the parameters that do not vary, /repo/radvel/driver.py 256-258. -/
def fillFixed {n : Nat} (s : VState ℝ) (c : Chain n) (k : Key) : Except PyErr (Chain n) :=
  match s.indices.get? k with
  | none => .error .keyError
  | some i =>
    match s.rows[i]? with
    | none => .error .indexError
    | some r => .ok (if r.vary then c else c.set k (fun _ => r.value))

/-- The median of a column of samples. Models /repo/radvel/driver.py 265. -/
noncomputable def colMid {n : Nat} (col : Fin n → ℝ) : ℝ := (quantile (fun j => some (col j)) 0.5).getD 0

/-- `post.vector.vector[post.vector.indices[k]][0] = post_summary[k][0.5]` for the columns that are parameters, /repo/radvel/driver.py 267-269. -/
noncomputable def setMedian {n : Nat} (params : Params ℝ) (indices : Dict Key Nat) (rows : List (Row ℝ)) (x : Key × (Fin n → ℝ)) : Except PyErr (List (Row ℝ)) :=
  if params.items.has x.1 then
    match indices.get? x.1 with
    | none => .error .keyError
    | some i =>
      match rows[i]? with
      | none => .error .indexError
      | some r => .ok (rows.set i { r with value := colMid x.2 })
  else .ok rows

/-- The steps before the fit, /repo/radvel/driver.py 254-271: the converted samples, and the state of the posterior. -/
noncomputable def prepare {n : Nat} (s : VState ℝ) (chains : Chain n) : Except PyErr (Frame n × VState ℝ) :=
  match s.params.items.keys.foldlM (fillFixed s) chains with
  | .error e => .error e
  | .ok c =>
    match c.toSynth s.params.basis s.params.numPlanets with
    | .error e => .error e
    | .ok f =>
      match chains.foldlM (setMedian s.params s.indices) s.rows with
      | .error e => .error e
      | .ok rows =>
        match VState.vectorToDict { s with rows := rows } with
        | .error e => .error e
        | .ok s' => .ok (f, s')

/-- The loop over the converted parameters, /repo/radvel/driver.py 284-303. -/
noncomputable def reportAll {n : Nat} (fuel : Nat) (f : Frame n) (out : Dict Key (Option Reported)) (x : Key × Parameter ℝ) : Except PyErr (Dict Key (Option Reported)) :=
  match f.get? x.1 with
  | none => .error .keyError
  | some col =>
    match report fuel x.2.value col with
    | .error e => .error e
    | .ok r => .ok (out.set x.1 r)

/-- The steps up to the conversion of the final parameters, /repo/radvel/driver.py 254-282: the converted samples, the posterior and the converted parameters; `dflt` is the value of a new `Parameter`, `fitFuel`
bounds the loop of the optimiser. `post.logprob()`, whose value is only printed, is evaluated because it writes into the vector. Simplification: exceptions raised by `residuals()` and `errorbars()`, which are only
printed, are left out. -/
noncomputable def postFit {n : Nat} (dflt : ℝ) (like : LikeEval) (opt : Optimiser) (fitFuel : Nat) (p : PostState) (chains : Chain n) : Except PyErr (Frame n × PostState × Params ℝ) :=
  match prepare p.st chains with
  | .error e => .error e
  | .ok (f, s) =>
    match maxlikeFitting like opt fitFuel { p with st := s } with
    | (_, .error e) => .error e
    | (q, .ok _) =>
      match logprob like.value q.st q.priors with
      | .error e => .error e
      | .ok _ =>
        match (stateAfter like q.st (priorSum q.st q.priors)).vectorToDict with
        | .error e => .error e
        | .ok s' =>
          match toSynth dflt s'.params.basis false s'.params with
          | .error e => .error e
          | .ok synth => .ok (f, { q with st := s' }, synth)

/-- `sampling_postprocessing(post, chains)`, /repo/radvel/driver.py 253-311: the posterior afterwards and what is reported for each parameter; `fuel` bounds the loop of `sigfig`. -/
noncomputable def postprocess {n : Nat} (dflt : ℝ) (like : LikeEval) (opt : Optimiser) (fitFuel fuel : Nat) (p : PostState) (chains : Chain n) : Except PyErr (PostState × Dict Key (Option Reported)) :=
  match postFit dflt like opt fitFuel p chains with
  | .error e => .error e
  | .ok (f, q, synth) =>
    match synth.items.foldlM (reportAll fuel f) [] with
    | .error e => .error e
    | .ok out => .ok (q, out)

end Radvel
