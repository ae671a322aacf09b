import Mathlib.Analysis.SpecialFunctions.Log.Basic
import Mathlib.Algebra.BigOperators.Group.List.Basic

/-!
Python/NumPy numbers with infinities and nan. Finite doubles are exact reals (no rounding, no overflow).
Not code of the project: the arithmetic that /repo/radvel/prior.py, posterior.py and likelihood.py rely on.
-/

namespace Radvel

/-- A number: finite, `inf`, `-inf` or `nan`. -/
inductive Fl
  | fin (x : ℝ)
  | pos
  | neg
  | nan

namespace Fl

/-- IEEE addition: `inf + -inf` is nan. -/
noncomputable def add : Fl → Fl → Fl
  | fin x, fin y => fin (x + y)
  | nan, _ => nan
  | _, nan => nan
  | pos, neg => nan
  | neg, pos => nan
  | pos, _ => pos
  | _, pos => pos
  | neg, _ => neg
  | _, neg => neg

/-- Unary minus. -/
def minus : Fl → Fl
  | fin x => fin (-x)
  | pos => neg
  | neg => pos
  | nan => nan

noncomputable instance : Zero Fl := ⟨fin 0⟩

noncomputable instance : Add Fl := ⟨add⟩

noncomputable instance : AddCommMonoid Fl where
  add_assoc := by
    intro a b c
    show add (add a b) c = add a (add b c)
    cases a <;> cases b <;> cases c <;> simp [add, add_assoc]
  zero_add := by intro a; show add (fin 0) a = a; cases a <;> simp [add]
  add_zero := by intro a; show add a (fin 0) = a; cases a <;> simp [add]
  add_comm := by
    intro a b
    show add a b = add b a
    cases a <;> cases b <;> simp [add, add_comm]
  nsmul := nsmulRec

/-- `np.isfinite`. -/
def isFinite : Fl → Bool
  | fin _ => true
  | _ => false

/-- `np.log` of a finite number. -/
noncomputable def log (x : ℝ) : Fl := if 0 < x then fin (Real.log x) else if x = 0 then neg else nan

/-- `np.exp`, for values that are log densities: `exp(-inf) = 0`. `exp(inf)` and `exp(nan)` are not numbers: `none`. -/
noncomputable def exp : Fl → Option ℝ
  | fin x => some (Real.exp x)
  | neg => some 0
  | _ => none

/-- `x <= b` for a finite `x`. -/
def ge (b : Fl) (x : ℝ) : Prop :=
  match b with
  | fin y => x ≤ y
  | pos => True
  | _ => False

/-- `x >= b` for a finite `x`. -/
def le (b : Fl) (x : ℝ) : Prop :=
  match b with
  | fin y => y ≤ x
  | neg => True
  | _ => False

@[simp] theorem fin_add_fin (x y : ℝ) : fin x + fin y = fin (x + y) := rfl
@[simp] theorem nan_add (a : Fl) : nan + a = nan := by cases a <;> rfl
@[simp] theorem add_nan (a : Fl) : a + nan = nan := by cases a <;> rfl
@[simp] theorem zero_def : (0 : Fl) = fin 0 := rfl

theorem isFinite_iff (a : Fl) : a.isFinite = true ↔ ∃ x, a = fin x := by
  cases a <;> simp [isFinite]

theorem neg_add (a : Fl) : neg + a = neg ∨ neg + a = nan := by
  cases a
  · exact Or.inl rfl
  · exact Or.inr rfl
  · exact Or.inl rfl
  · exact Or.inr rfl

theorem sum_map_fin (l : List ℝ) : (l.map fin).sum = fin l.sum := by
  induction l with
  | nil => rfl
  | cons a l ih => simp [ih]

theorem log_of_pos {x : ℝ} (h : 0 < x) : log x = fin (Real.log x) := by simp [log, h]

end Fl
end Radvel
