import Verif.Py.Dict
import Mathlib.Analysis.SpecialFunctions.Pow.Real
import Mathlib.Algebra.BigOperators.Group.List.Basic

/-!
# `radvel/utils.py` 222-306: binning

Times, velocities and errors are exact reals; `none` is nan.
-/

namespace Radvel
open Real

/-- One observation: an entry of the arrays `time`, `meas`, `meas_err`. Simplification: the arrays have equal lengths, so they are stored row by row. Models /repo/radvel/utils.py 222-260. -/
structure Pt where
  t : ℝ
  v : ℝ
  err : ℝ

/-- The three lists returned by `timebin`. Models /repo/radvel/utils.py 260. -/
structure Binned where
  t : List (Option ℝ)
  v : List (Option ℝ)
  err : List ℝ

/-- `(1./meas_err)**2`, /repo/radvel/utils.py 248. -/
noncomputable def Pt.weight (p : Pt) : ℝ := (1 / p.err) ^ 2

open Classical in
/-- `np.sum(wt*x[ind])` with normalised weights, /repo/radvel/utils.py 248-252. An error of zero has weight `inf`, which is nan after normalisation; so is an empty sum's
weight, but then there is nothing to sum. -/
noncomputable def weighted (f : Pt → ℝ) (ind : List Pt) : Option ℝ :=
  if ∃ p ∈ ind, p.err = 0 then none
  else some (ind.map (fun p => p.weight / (ind.map Pt.weight).sum * f p)).sum

open Classical in
/-- `1./np.sqrt(np.sum(1./(meas_err[ind])**2))`, /repo/radvel/utils.py 253: 0 if an error is zero. Never evaluated for an empty bin that is returned. -/
noncomputable def binError (ind : List Pt) : ℝ :=
  if ∃ p ∈ ind, p.err = 0 then 0 else 1 / √(ind.map (fun p => 1 / p.err ^ 2)).sum

/-- `np.where((time >= time[ct]) & (time < time[ct]+binsize))`, /repo/radvel/utils.py 246, over the whole sorted array. -/
noncomputable def inBin (binsize t0 : ℝ) (pts : List Pt) : List Pt := pts.filter (fun p => decide (t0 ≤ p.t) && decide (p.t < t0 + binsize))

/-- The three output lists after one more bin; `none`: not yet assigned. /repo/radvel/utils.py 250-257. -/
noncomputable def addBin (ct : Nat) (out : Option Binned) (ind : List Pt) : Except PyErr Binned :=
  if ct = 0 then .ok ⟨[weighted Pt.t ind], [weighted Pt.v ind], [binError ind]⟩
  else
    match out with
    | none => .error .unboundLocalError
    | some o => .ok ⟨o.t ++ [weighted Pt.t ind], o.v ++ [weighted Pt.v ind], o.err ++ [binError ind]⟩

/-- The `while` loop of `timebin`, /repo/radvel/utils.py 244-258, for at most `fuel` turns; `none`: it is still running. -/
noncomputable def timebinLoop (binsize : ℝ) (pts : List Pt) : Nat → Nat → Option Binned → Option (Except PyErr Binned)
  | 0, _, _ => none
  | fuel + 1, ct, out =>
    match pts[ct]? with
    | none =>
      match out with
      | none => some (.error .unboundLocalError)
      | some o => some (.ok o)
    | some p =>
      let ind := inBin binsize p.t pts
      match addBin ct out ind with
      | .error e => some (.error e)
      | .ok o => timebinLoop binsize pts fuel (ct + ind.length) (some o)

/-- `timebin`, /repo/radvel/utils.py 222-260, run for at most `fuel` turns of its loop. `argsort` is the permutation applied by `np.argsort(time)`, whose treatment of equal
times is unspecified. -/
noncomputable def timebin (argsort : List Pt → List Pt) (fuel : Nat) (pts : List Pt) (binsize : ℝ) : Option (Except PyErr Binned) :=
  timebinLoop binsize (argsort pts) fuel 0 none

/-- The distinct labels in the order of first appearance: `np.unique(telvec)[np.argsort(first indices)]`, /repo/radvel/utils.py 290-291. -/
def uniqOrder : List String → List String
  | [] => []
  | a :: l => a :: (uniqOrder l).filter (fun b => decide (b ≠ a))

/-- The four arrays returned by `bintels`. Models /repo/radvel/utils.py 306. -/
structure TelBins where
  t : List (Option ℝ)
  v : List (Option ℝ)
  err : List ℝ
  tel : List String

/-- The observations of one telescope, `np.where(telvec == tel)`, /repo/radvel/utils.py 297. -/
def ownData (data : List (String × Pt)) (tel : String) : List Pt := (data.filter (fun d => decide (d.1 = tel))).map Prod.snd

/-- One turn of the loop of `bintels`, /repo/radvel/utils.py 296-304. -/
noncomputable def bintelsStep (argsort : List Pt → List Pt) (fuel : Nat) (binsize : ℝ) (data : List (String × Pt)) (acc : TelBins) (tel : String) :
    Option (Except PyErr TelBins) :=
  match timebin argsort fuel (ownData data tel) binsize with
  | none => none
  | some (.error e) => some (.error e)
  | some (.ok b) => some (.ok ⟨acc.t ++ b.t, acc.v ++ b.v, acc.err ++ b.err, acc.tel ++ List.replicate b.t.length tel⟩)

/-- The loop of `bintels`, /repo/radvel/utils.py 296-304. -/
noncomputable def bintelsLoop (argsort : List Pt → List Pt) (fuel : Nat) (binsize : ℝ) (data : List (String × Pt)) : TelBins → List String → Option (Except PyErr TelBins)
  | acc, [] => some (.ok acc)
  | acc, tel :: tels =>
    match bintelsStep argsort fuel binsize data acc tel with
    | none => none
    | some (.error e) => some (.error e)
    | some (.ok acc') => bintelsLoop argsort fuel binsize data acc' tels

/-- `bintels`, /repo/radvel/utils.py 263-306: with a single telescope the labels are the first ones of `telvec`. -/
noncomputable def bintels (argsort : List Pt → List Pt) (fuel : Nat) (data : List (String × Pt)) (binsize : ℝ) : Option (Except PyErr TelBins) :=
  if (uniqOrder (data.map Prod.fst)).length = 1 then
    match timebin argsort fuel (data.map Prod.snd) binsize with
    | none => none
    | some (.error e) => some (.error e)
    | some (.ok b) => some (.ok ⟨b.t, b.v, b.err, (data.map Prod.fst).take b.t.length⟩)
  else bintelsLoop argsort fuel binsize data ⟨[], [], [], []⟩ (uniqOrder (data.map Prod.fst))

end Radvel
