import Verif.Model.Panels
import Mathlib.Algebra.Group.Defs

/-!
# What the GP figure should show
-/

namespace Radvel

variable {α : Type} [AddCommGroup α]

/-- The observations of a figure with GP likelihoods: `y` the measured velocities without their offsets, `orbit` the orbital model, `mu` the GP mean of the own instrument (zero without GP), all in the
order of `telvec`; `residuals()` subtracts the orbit and the mean. -/
structure GPData (g : GPFig α) (ms : List (GPMember α)) (y orbit mu : List α) : Prop where
  y_len : y.length = g.telvec.length
  orbit_len : orbit.length = g.telvec.length
  mu_len : mu.length = g.telvec.length
  resid : g.rawresid = List.zipWith (· - ·) y (List.zipWith (· + ·) orbit mu)
  distinct : (ms.map GPMember.suffix).Nodup
  own : ∀ m ∈ ms, ∀ x, m.mean = some x → x = ((g.telvec.zip mu).filter (fun p => decide (p.1 = m.suffix))).map Prod.snd
  zero : ∀ p ∈ g.telvec.zip mu, (∀ m ∈ ms, m.suffix = p.1 → m.mean = none) → p.2 = 0

/-- The panel shows the velocities `y`, every one once and with its own instrument. -/
def GPPanel.Shows (p : GPPanel α) (telvec : List String) (y : List α) : Prop := (p.drawn.flatMap (fun d => d.pts.map (fun x => (d.tel, x)))).Perm (telvec.zip y)

/-- The velocities to show, with the options. -/
def GPFig.wanted (g : GPFig α) (y orbit mu : List α) : List α :=
  let z := if g.subtractOrbit then List.zipWith (· - ·) y orbit else y
  if g.subtractGp then List.zipWith (· - ·) z mu else z

end Radvel
