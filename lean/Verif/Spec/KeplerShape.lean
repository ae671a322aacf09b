import Verif.Model.KeplerShape

/-!
# Vocabulary for the shape of velocities (C184)
-/

namespace Radvel

/-- The entries of what was returned. -/
def Ret.entries : Ret → List (Option ℝ)
  | .scalar v => [v]
  | .array l => l

/-- The velocity of one planet at one time, by either implementation. -/
noncomputable def driveAt (cext : Bool) (fuel : Nat) : Drive := fun t o =>
  if cext then rvDrive cSolve rvC t o.per o.tp o.e o.w o.k else rvDrive (npSolve fuel) rvNumpy t o.per o.tp o.e o.w o.k

end Radvel
