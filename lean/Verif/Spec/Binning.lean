import Verif.Model.Binning

/-!
Specification side of C50 and C51: groupings of observations into bins, independent of the loop.
-/

namespace Radvel
open Real

/-- `argsort` orders any data by time (equal times in any order). -/
def IsArgsort (argsort : List Pt → List Pt) : Prop := ∀ l, (argsort l).Perm l ∧ (argsort l).Pairwise (fun a b => a.t ≤ b.t)

/-- The data are divided into non-empty groups: each observation is in exactly one; a group spans less than the bin size; the groups follow one another in time, each
starting at least a bin size after the start of the one before. -/
structure Grouping (binsize : ℝ) (pts : List Pt) (groups : List (List Pt)) : Prop where
  perm : groups.flatten.Perm pts
  nonempty : ∀ g ∈ groups, g ≠ []
  narrow : ∀ g ∈ groups, ∀ p ∈ g, ∀ q ∈ g, q.t - p.t < binsize
  apart : groups.Pairwise (fun g g' => ∀ p ∈ g, ∀ q ∈ g', p.t < q.t)
  starts : groups.Pairwise (fun g g' => ∃ p ∈ g, ∀ q ∈ g', p.t + binsize ≤ q.t)

/-- Total inverse variance. -/
noncomputable def invVar (l : List Pt) : ℝ := (l.map (fun p => 1 / p.err ^ 2)).sum

/-- The inverse-variance weighted mean of a quantity. -/
noncomputable def wmean (f : Pt → ℝ) (l : List Pt) : ℝ := (l.map (fun p => f p / p.err ^ 2)).sum / invVar l

end Radvel
