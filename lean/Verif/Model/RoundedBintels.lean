import Verif.Model.RoundedTimebin

/-!
# `bintels` with rounded operations (`radvel/utils.py` 263-306)

As in `Verif.Model.Binning`, with the rounded `timebin`.
-/

namespace Radvel

/-- One turn of the loop of `bintels`, /repo/radvel/utils.py 296-304. -/
noncomputable def bintelsRoundedStep (rnd : ℝ → ℝ) (sum : List ℝ → ℝ) (argsort : List Pt → List Pt) (fuel : Nat) (binsize : ℝ) (data : List (String × Pt)) (acc : TelBins) (tel : String) :
    Option (Except PyErr TelBins) :=
  match timebinRounded rnd sum argsort fuel (ownData data tel) binsize with
  | none => none
  | some (.error e) => some (.error e)
  | some (.ok b) => some (.ok ⟨acc.t ++ b.t, acc.v ++ b.v, acc.err ++ b.err, acc.tel ++ List.replicate b.t.length tel⟩)

/-- The loop of `bintels`, /repo/radvel/utils.py 296-304. -/
noncomputable def bintelsRoundedLoop (rnd : ℝ → ℝ) (sum : List ℝ → ℝ) (argsort : List Pt → List Pt) (fuel : Nat) (binsize : ℝ) (data : List (String × Pt)) : TelBins → List String → Option (Except PyErr TelBins)
  | acc, [] => some (.ok acc)
  | acc, tel :: tels =>
    match bintelsRoundedStep rnd sum argsort fuel binsize data acc tel with
    | none => none
    | some (.error e) => some (.error e)
    | some (.ok acc') => bintelsRoundedLoop rnd sum argsort fuel binsize data acc' tels

/-- `bintels`, /repo/radvel/utils.py 263-306. -/
noncomputable def bintelsRounded (rnd : ℝ → ℝ) (sum : List ℝ → ℝ) (argsort : List Pt → List Pt) (fuel : Nat) (data : List (String × Pt)) (binsize : ℝ) : Option (Except PyErr TelBins) :=
  if (uniqOrder (data.map Prod.fst)).length = 1 then
    match timebinRounded rnd sum argsort fuel (data.map Prod.snd) binsize with
    | none => none
    | some (.error e) => some (.error e)
    | some (.ok b) => some (.ok ⟨b.t, b.v, b.err, (data.map Prod.fst).take b.t.length⟩)
  else bintelsRoundedLoop rnd sum argsort fuel binsize data ⟨[], [], [], []⟩ (uniqOrder (data.map Prod.fst))

end Radvel
