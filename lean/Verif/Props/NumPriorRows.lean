import Verif.Model.NumPriorRows
import Verif.Props.NumPrior

/-! # C162 for several parameters -/

namespace Radvel

theorem least_perm {v v' : ℝ} {vs vs' : List ℝ} (h : (v :: vs).Perm (v' :: vs')) : least v vs = least v' vs' :=
  le_antisymm (least_le v vs _ (h.mem_iff.2 (least_mem v' vs'))) (least_le v' vs' _ (h.mem_iff.1 (least_mem v vs)))

theorem greatest_perm {v v' : ℝ} {vs vs' : List ℝ} (h : (v :: vs).Perm (v' :: vs')) : greatest v vs = greatest v' vs' :=
  le_antisymm (le_greatest v' vs' _ (h.mem_iff.1 (greatest_mem v vs))) (le_greatest v vs _ (h.mem_iff.2 (greatest_mem v' vs')))

theorem histOf_perm (lo hi : ℝ) (nb : Nat) {l l' : List ℝ} (h : l.Perm l') : histOf lo hi nb l = histOf lo hi nb l' := by
  unfold histOf
  exact List.map_congr_left fun j _ => h.countP_eq _

/-- C162, order: the attributes made for the transform depend on the values only, not on their order. -/
theorem C162_order (nb : Nat) {l l' : List ℝ} (h : l.Perm l') : NumPrior.new nb l = NumPrior.new nb l' := by
  match l, l', h with
  | [], l', h => rw [List.nil_perm.1 h]
  | [a], l', h => rw [List.singleton_perm.1 h]
  | a :: b :: t, [], h => exact absurd h.length_eq (by simp)
  | a :: b :: t, [c], h => exact absurd h.length_eq (by simp)
  | a :: b :: t, c :: d :: t', h =>
    unfold NumPrior.new
    simp only [least_perm h, greatest_perm h, histOf_perm _ _ _ h]

/-- C162 is false for several parameters: the transform is a single number made from the values of all of them. Whatever value belongs to whatever parameter, and however they are correlated, the result is the same. -/
theorem C162_several_violated (kde : List (List ℝ) → Except PyErr Unit) (nb : Nat) (rows rows' : List (List ℝ)) (h : rows.flatten.Perm rows'.flatten) (hk : kde rows = .ok ()) (hk' : kde rows' = .ok ()) :
    NumPrior.newRows kde nb rows = NumPrior.newRows kde nb rows' := by
  unfold NumPrior.newRows
  rw [hk, hk']
  exact C162_order nb h

/-- Two parameters with their values exchanged, and two with other correlations, give the same transform. -/
example : ∃ P, NumPrior.newRows (fun _ => .ok ()) 2 [[0, 1, 3], [10, 12, 11]] = .ok P ∧ NumPrior.newRows (fun _ => .ok ()) 2 [[10, 12, 11], [0, 1, 3]] = .ok P ∧
    NumPrior.newRows (fun _ => .ok ()) 2 [[0, 1, 3], [10, 11, 12]] = .ok P := by
  obtain ⟨P, hP⟩ := C162_made (nb := 2) (values := [0, 1, 3, 10, 12, 11]) (a := 0) (b := 1) (by norm_num) (by simp) (by simp) (by norm_num)
  refine ⟨P, hP, ?_, ?_⟩
  · rw [← C162_several_violated (fun _ => .ok ()) 2 [[0, 1, 3], [10, 12, 11]] [[10, 12, 11], [0, 1, 3]] (List.perm_append_comm (l₁ := [0, 1, 3]) (l₂ := [10, 12, 11])) rfl rfl]
    exact hP
  · rw [← C162_several_violated (fun _ => .ok ()) 2 [[0, 1, 3], [10, 12, 11]] [[0, 1, 3], [10, 11, 12]] (List.Perm.append_left [0, 1, 3] (List.Perm.cons 10 (List.Perm.swap 11 12 []))) rfl rfl]
    exact hP

end Radvel
