import Verif.Py.Float
import Verif.Py.Dict
import Mathlib.Analysis.SpecialFunctions.Pow.Real

/-!
More of NumPy's arithmetic and comparisons with infinities and nan, and Python's `min`/`max` next to NumPy's `amin`/`amax`.
Not code of the project: what /repo/radvel/mcmc.py relies on. There is one zero (no sign).
-/

namespace Radvel.Fl

/-- `x / y` of two finite numbers under `np.errstate(divide='ignore')`. -/
noncomputable def quot (x y : ℝ) : Fl := if y = 0 then (if x = 0 then nan else if 0 < x then pos else neg) else fin (x / y)

/-- `np.abs`. -/
noncomputable def abs : Fl → Fl
  | fin x => fin |x|
  | nan => nan
  | _ => pos

/-- `a - b`. -/
noncomputable def sub (a b : Fl) : Fl := a + b.minus

/-- `a / b`. -/
noncomputable def div : Fl → Fl → Fl
  | fin x, fin y => quot x y
  | nan, _ => nan
  | _, nan => nan
  | fin _, _ => fin 0
  | pos, fin y => if 0 ≤ y then pos else neg
  | neg, fin y => if 0 ≤ y then neg else pos
  | _, _ => nan

/-- `np.sqrt`. -/
noncomputable def sqrt : Fl → Fl
  | fin x => if 0 ≤ x then fin (Real.sqrt x) else nan
  | pos => pos
  | _ => nan

/-- `c * a` for a finite positive `c`. -/
noncomputable def scale (c : ℝ) : Fl → Fl
  | fin x => fin (c * x)
  | a => a

/-- `a < b`: false as soon as one side is nan. -/
def lt : Fl → Fl → Prop
  | fin x, fin y => x < y
  | neg, fin _ => True
  | neg, pos => True
  | fin _, pos => True
  | _, _ => False

/-- `a <= b`. -/
def leq : Fl → Fl → Prop
  | fin x, fin y => x ≤ y
  | nan, _ => False
  | _, nan => False
  | neg, _ => True
  | _, pos => True
  | _, _ => False

open Classical in
/-- One comparison of Python's `max`. -/
noncomputable def maxStep (cur x : Fl) : Fl := if cur.lt x then x else cur

open Classical in
/-- One comparison of Python's `min`. -/
noncomputable def minStep (cur x : Fl) : Fl := if x.lt cur then x else cur

/-- Python's `max(l)`: keeps the first element unless a later one compares greater; `ValueError` for an empty list. -/
noncomputable def pyMax : List Fl → Except PyErr Fl
  | [] => .error .valueError
  | a :: l => .ok (l.foldl maxStep a)

/-- Python's `min(l)`. -/
noncomputable def pyMin : List Fl → Except PyErr Fl
  | [] => .error .valueError
  | a :: l => .ok (l.foldl minStep a)

open Classical in
/-- `np.amax(l)`: nan if some element is nan. -/
noncomputable def npMax (l : List Fl) : Except PyErr Fl := if nan ∈ l then .ok nan else pyMax l

open Classical in
/-- `np.amin(l)`. -/
noncomputable def npMin (l : List Fl) : Except PyErr Fl := if nan ∈ l then .ok nan else pyMin l

/-- `np.mean(l)`. -/
noncomputable def npMean (l : List Fl) : Fl := div l.sum (fin l.length)

end Radvel.Fl
