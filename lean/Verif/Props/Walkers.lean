import Verif.Model.Walkers
import Mathlib.Tactic.SplitIfs

/-! # C109: how many walkers start -/

namespace Radvel

/-- C109: every ensemble starts at least as many walkers as requested and at least twice as many as there are free parameters, no more than needed for both, and every walker has one coordinate per free parameter, which for
a finite scale is the current value plus a random part of the scale. -/
theorem C109_walkers (rand : Nat → Nat → ℝ) (ps : List FreePar) (nwalkers : Nat) :
    (startPositions rand ps nwalkers).length = max nwalkers (2 * ps.length) ∧ (∀ w ∈ startPositions rand ps nwalkers, w.length = ps.length) ∧
    ∀ (i j : Nat) (p : FreePar) (r : ℝ), i < max nwalkers (2 * ps.length) → ps[j]? = some p → scaleOf p = .fin r →
      ∃ w, (startPositions rand ps nwalkers)[i]? = some w ∧ w[j]? = some (.fin (p.val + rand i j * r)) := by
  have hn : adjustWalkers nwalkers ps.length = max nwalkers (2 * ps.length) := by
    unfold adjustWalkers
    split_ifs with h
    · exact (max_eq_right h.le).symm
    · exact (max_eq_left (not_lt.1 h)).symm
  refine ⟨?_, ?_, ?_⟩
  · rw [startPositions, List.length_map, List.length_range, hn]
  · intro w hw
    rw [startPositions, List.mem_map] at hw
    obtain ⟨i, _, rfl⟩ := hw
    simp [walkerStart]
  · intro i j p r hi hp hr
    refine ⟨walkerStart rand ps i, ?_, ?_⟩
    · rw [startPositions, hn, List.getElem?_map, List.getElem?_range hi]
      rfl
    · simp [walkerStart, List.getElem?_zipIdx, hp, hr, Fl.scale, Fl.add]

/-- Non-vacuity: three walkers requested for two free parameters with given scales; four start. -/
example : (startPositions (fun i j => i + j) [⟨"k1".toList, 5, .fin 1⟩, ⟨"k2".toList, 6, .fin 2⟩] 3).length = 4 :=
  (C109_walkers _ _ _).1

end Radvel
