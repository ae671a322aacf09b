import Verif.Model.Print
import Verif.Spec.Basis
import Verif.Spec.History
import Verif.Spec.Postprocess

/-!
What printing should show (specification side of C156).
-/

namespace Radvel

/-- The orbital elements of an orbit by name. -/
def Synth.element (o : Synth) : PName → Option ℝ
  | .per => some o.per
  | .tp => some o.tp
  | .e => some o.e
  | .w => some o.w
  | .k => some o.k
  | _ => none

/-- How the value `v` of a parameter is shown: times of transit and periastron after 1000000 relative to `tb`, everything else as it is. (Nothing is said about large values of
user-defined parameters.) -/
structure Shown (tb : ℝ) (k : Key) (v shown : ℝ) : Prop where
  time : ∀ n, k = .orb .tc n ∨ k = .orb .tp n → 1000000 < v → shown = v - tb
  small : v ≤ 1000000 → shown = v
  other : (∀ n, k ≠ .orb .tc n ∧ k ≠ .orb .tp n) → (∀ t, k ≠ .other t) → shown = v

/-- The column of uncertainties: absent without uncertainties, else the one of the parameter, or 0. -/
def ShownErr (uparams : Option (Dict Key ℝ)) (k : Key) (e : Option ℝ) : Prop :=
  match uparams with
  | none => e = none
  | some u => e = some (match u.get? k with | some x => x | none => 0)

end Radvel
