import Verif.Py.Dict
import Mathlib.Analysis.SpecialFunctions.Pow.Real
import Mathlib.Algebra.BigOperators.Group.List.Basic

/-!
# `radvel/utils.py` 309-343: `fastbin`

Exact reals; the data are numbers (no nan).
-/

namespace Radvel
open Real

/-- A point: an entry of the arrays `x`, `y`. Simplification: the arrays have equal lengths, so they are stored row by row. Models /repo/radvel/utils.py 309-325. -/
structure XY where
  x : ℝ
  y : ℝ

/-- The outer edges that `np.histogram(x, bins=nbins)` chooses (/repo/radvel/utils.py 323): the extremes of the data, widened by 1/2 on both sides if they coincide, and 0 and 1 without data. -/
noncomputable def histRange (pts : List XY) : ℝ × ℝ :=
  match (pts.map XY.x).min?, (pts.map XY.x).max? with
  | some a, some b => if a = b then (a - 0.5, b + 0.5) else (a, b)
  | _, _ => (0, 1)

/-- Edge `i` of `nbins` bins of equal width. Used for /repo/radvel/utils.py 323, 330. -/
noncomputable def histEdge (r : ℝ × ℝ) (nbins i : Nat) : ℝ := r.1 + i * ((r.2 - r.1) / nbins)

open Classical in
/-- The points that `np.histogram` counts in bin `i`: `edge i ≤ x < edge (i + 1)`, the last bin including its right edge. Used for /repo/radvel/utils.py 323-325. -/
noncomputable def histBin (pts : List XY) (nbins i : Nat) : List XY :=
  pts.filter (fun p => decide (histEdge (histRange pts) nbins i ≤ p.x ∧ (p.x < histEdge (histRange pts) nbins (i + 1) ∨ (i + 1 = nbins ∧ p.x = histEdge (histRange pts) nbins (i + 1)))))

/-- A binned measurement: an entry of `bint`, `bindat`, `binerr`. Models /repo/radvel/utils.py 328-342. -/
structure BinXY where
  t : ℝ
  dat : ℝ
  err : ℝ

/-- The entry for bin `i` before selection, /repo/radvel/utils.py 323-330; only used for bins with points. -/
noncomputable def binXY (pts : List XY) (nbins i : Nat) : BinXY :=
  let b := histBin pts nbins i
  let n : ℝ := b.length
  let sy := (b.map XY.y).sum
  let sy2 := (b.map (fun p => p.y * p.y)).sum
  let dat := sy / n
  ⟨(histEdge (histRange pts) nbins (i + 1) + histEdge (histRange pts) nbins i) / 2, dat, √(sy2 / n - dat * dat) / √n⟩

open Classical in
/-- `fastbin(x, y, nbins)`, /repo/radvel/utils.py 309-342: the bins with at least three points (334-337) whose centre is positive (339-342). -/
noncomputable def fastbin (pts : List XY) (nbins : Nat) : List BinXY :=
  (((List.range nbins).filter (fun i => decide (3 ≤ (histBin pts nbins i).length))).map (binXY pts nbins)).filter (fun b => decide (0 < b.t))

end Radvel
