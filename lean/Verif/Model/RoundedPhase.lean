import Verif.Model.Numbers

/-!
# Orbital phases with rounded operations (`radvel/utils.py` 345-383)

Every operation is the exact one followed by `rnd`. Not modelled: overflow and underflow.
-/

namespace Radvel

/-- `np.mod(a, P)` for `P ≠ 0`: C's `fmod`, which is exact, and the addition of `P` if the signs differ. Used for /repo/radvel/utils.py 367 and 379. -/
noncomputable def modRounded (rnd : ℝ → ℝ) (a P : ℝ) : ℝ :=
  let r := a - P * truncInt (a / P)
  if r ≠ 0 ∧ ¬ (r < 0 ↔ P < 0) then rnd (r + P) else r

/-- `np.mod(t - tc, P) / P` for one time, /repo/radvel/utils.py 367-368 and 379-380; for `P = 0` it is nan (`none`). -/
noncomputable def phaseRounded (rnd : ℝ → ℝ) (tc P t : ℝ) : Option ℝ :=
  if P = 0 then none else some (rnd (modRounded rnd (rnd (t - tc)) P / P))

/-- The phases of an array of times, /repo/radvel/utils.py 367-371 and 379-383, given the time `tc` and the period. -/
noncomputable def phasesRounded (rnd : ℝ → ℝ) (tc P : ℝ) (ts : List ℝ) (cat : Bool) : List (Option ℝ) :=
  let phase := ts.map (phaseRounded rnd tc P)
  if cat then phase ++ phase.map (fun x => x.map fun x => rnd (x + 1)) else phase

end Radvel
