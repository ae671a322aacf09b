import Verif.Model.Numbers

/-!
# `geterr` with rounded operations (`radvel/utils.py` 444-479)
-/

namespace Radvel

/-- `np.median`, with the mean of the two middle elements rounded. Used for /repo/radvel/utils.py 471-473. -/
noncomputable def medianRounded (rnd : ℝ → ℝ) (s : List ℝ) : ℝ :=
  let s := s.mergeSort (fun a b => decide (a ≤ b))
  if s.length % 2 = 1 then s.getD (s.length / 2) 0 else rnd (rnd (s.getD (s.length / 2 - 1) 0 + s.getD (s.length / 2) 0) / 2)

/-- `int(c*len(s))`, /repo/radvel/utils.py 476-477: the constant and the product are rounded. -/
noncomputable def rankRounded (rnd : ℝ → ℝ) (c : ℝ) (n : Nat) : Nat := ⌊rnd (rnd c * n)⌋₊

/-- `geterr(vec)`, /repo/radvel/utils.py 444-479, for a sample that is not angular (or whose angles have been wrapped). -/
noncomputable def geterrRounded (rnd : ℝ → ℝ) (vec : List ℝ) : Except PyErr (ℝ × ℝ × ℝ) :=
  let med := medianRounded rnd vec
  let s := vec.mergeSort (fun a b => decide (a ≤ b))
  match pyIndex s (rankRounded rnd 0.159 s.length), pyIndex s (rankRounded rnd 0.841 s.length) with
  | .ok lo, .ok hi => .ok (med, rnd (med - lo), rnd (hi - med))
  | .error e, _ => .error e
  | _, .error e => .error e

end Radvel
