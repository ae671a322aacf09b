import Verif.Model.Basis

/-!
# `radvel/utils.py` 345-383: time to orbital phase
-/

namespace Radvel

/-- `np.mod(t - tc, P) / P` for one time, /repo/radvel/utils.py 367-368 and 379-380. `np.mod` is the remainder of floor division; for `P = 0` it is nan (`none`). -/
noncomputable def phaseAt (tc P t : ℝ) : Option ℝ :=
  if P = 0 then none else some ((t - tc - P * ⌊(t - tc) / P⌋) / P)

/-- The doubling of the output, /repo/radvel/utils.py 369-370 and 381-382. -/
def catPhase (cat : Bool) (phase : List (Option ℝ)) : List (Option ℝ) :=
  if cat then phase ++ phase.map (fun x => x.map (· + 1)) else phase

/-- `t_to_phase(params, t, num_planet, cat)`, /repo/radvel/utils.py 345-371. The local variable `timeparam` stays unassigned when neither key exists. -/
noncomputable def tToPhase (p : Params ℝ) (ts : List ℝ) (n : Nat) (cat : Bool) : Except PyErr (List (Option ℝ)) := do
  let timeparam : Option PName := if p.items.has (.orb .tc n) then some .tc else if p.items.has (.orb .tp n) then some .tp else none
  let per ← p.items.get (.orb .per n)
  match timeparam with
  | none => .error .unboundLocalError
  | some x =>
    let tc ← p.items.get (.orb x n)
    return catPhase cat (ts.map (phaseAt tc.value per.value))

/-- `t_to_phase_vector(vector, t, num_planet, cat)`, /repo/radvel/utils.py 373-383, for `num_planet = i + 1` and an array of times (the model of priors has the one-time case, `tToPhaseVector`). -/
noncomputable def tToPhaseVectorArr (s : VState ℝ) (ts : List ℝ) (i : Nat) (cat : Bool) : Except PyErr (List (Option ℝ)) := do
  let rows ← vToSynth s.params.basis s.params.numPlanets s.rows
  match rows[5 * i]?, rows[5 * i + 1]? with
  | some r0, some r1 => .ok (catPhase cat (ts.map (phaseAt r1.value r0.value)))
  | _, _ => .error .indexError

end Radvel
