import Verif.Model.RoundedAverage

/-!
# `timebin` with rounded operations (`radvel/utils.py` 222-260)
-/

namespace Radvel

/-- The three output lists after one more bin, as in `addBin`, with rounded averages. /repo/radvel/utils.py 247-257. -/
noncomputable def addBinRounded (rnd : ℝ → ℝ) (sum : List ℝ → ℝ) (ct : Nat) (out : Option Binned) (ind : List Pt) : Except PyErr Binned :=
  if ct = 0 then .ok ⟨[weightedRounded rnd sum Pt.t ind], [weightedRounded rnd sum Pt.v ind], [binErrorRounded rnd sum ind]⟩
  else
    match out with
    | none => .error .unboundLocalError
    | some o => .ok ⟨o.t ++ [weightedRounded rnd sum Pt.t ind], o.v ++ [weightedRounded rnd sum Pt.v ind], o.err ++ [binErrorRounded rnd sum ind]⟩

/-- The `while` loop of `timebin`, /repo/radvel/utils.py 244-258, for at most `fuel` turns; the sum in line 246 is rounded. -/
noncomputable def timebinRoundedLoop (rnd : ℝ → ℝ) (sum : List ℝ → ℝ) (binsize : ℝ) (pts : List Pt) : Nat → Nat → Option Binned → Option (Except PyErr Binned)
  | 0, _, _ => none
  | fuel + 1, ct, out =>
    match pts[ct]? with
    | none =>
      match out with
      | none => some (.error .unboundLocalError)
      | some o => some (.ok o)
    | some p =>
      let ind := pts.filter (fun q => decide (p.t ≤ q.t) && decide (q.t < rnd (p.t + binsize)))
      match addBinRounded rnd sum ct out ind with
      | .error e => some (.error e)
      | .ok o => timebinRoundedLoop rnd sum binsize pts fuel (ct + ind.length) (some o)

/-- `timebin`, /repo/radvel/utils.py 222-260, as in `timebin` of `Verif.Model.Binning`, with rounding. -/
noncomputable def timebinRounded (rnd : ℝ → ℝ) (sum : List ℝ → ℝ) (argsort : List Pt → List Pt) (fuel : Nat) (pts : List Pt) (binsize : ℝ) : Option (Except PyErr Binned) :=
  timebinRoundedLoop rnd sum binsize (argsort pts) fuel 0 none

end Radvel
