import Verif.Model.FastBin

/-! Specification vocabulary for binned points (C134). -/

namespace Radvel
open Real

/-- The interval that is divided: from the smallest to the largest `x`, or a unit interval around their common value. -/
def DataRange (pts : List XY) (lo hi : ℝ) : Prop :=
  ∃ a b, (∃ p ∈ pts, p.x = a) ∧ (∃ p ∈ pts, p.x = b) ∧ (∀ p ∈ pts, a ≤ p.x ∧ p.x ≤ b) ∧ ((a < b ∧ lo = a ∧ hi = b) ∨ (a = b ∧ lo = a - 1 / 2 ∧ hi = a + 1 / 2))

/-- `x` is in part `i` of `n` equal parts of the interval; the right end belongs to the last part. -/
def InPart (lo hi : ℝ) (n i : Nat) (x : ℝ) : Prop :=
  lo + (hi - lo) * i / n ≤ x ∧ (x < lo + (hi - lo) * (i + 1) / n ∨ (i + 1 = n ∧ x = hi))

open Classical in
/-- The points in part `i`. -/
noncomputable def partOf (pts : List XY) (lo hi : ℝ) (n i : Nat) : List XY := pts.filter (fun p => decide (InPart lo hi n i p.x))

/-- The mean. -/
noncomputable def meanY (l : List XY) : ℝ := (l.map XY.y).sum / l.length

/-- The standard error of the mean: root mean square deviation divided by the root of the number of points. -/
noncomputable def stdErrY (l : List XY) : ℝ := √((l.map (fun p => (p.y - meanY l) ^ 2)).sum / l.length) / √l.length

/-- What should be shown for a part of the interval. -/
structure ShowsPart (pts : List XY) (lo hi : ℝ) (n i : Nat) (b : BinXY) : Prop where
  mid : b.t = lo + (hi - lo) * (i + 1 / 2) / n
  dat : b.dat = meanY (partOf pts lo hi n i)
  err : b.err = stdErrY (partOf pts lo hi n i)

end Radvel
