import Verif.Model.Progress
import Verif.Spec.Driver
import Mathlib.Data.Rat.Defs
import Mathlib.Algebra.Order.Ring.Unbundled.Rat

/-! Specification for the progress display. -/

namespace Radvel

/-- A line that shows how much of the work is done: a bar of 50 characters of which the part done is filled, to the nearest character, the two counts, and the percentage to one decimal. -/
def ShowsProgress (done total : Nat) (line : Text) : Prop :=
  ∃ (filled : Nat) (a b whole : Text) (tenth : Char),
    line = ['['] ++ List.replicate filled '=' ++ List.replicate (50 - filled) ' ' ++ "] ".toList ++ a ++ ['/'] ++ b ++ " (".toList ++ whole ++ ['.', tenth] ++ "%) steps complete; ".toList ∧
    filled ≤ 50 ∧ |(50 * done : ℚ) / total - filled| ≤ 1 / 2 ∧
    Digits a ∧ numeral a = done ∧ Digits b ∧ numeral b = total ∧
    Digits whole ∧ IsDigit tenth ∧ |(100 * done : ℚ) / total - numeral (whole ++ [tenth]) / 10| ≤ 1 / 20

/-- `r` rounds of the main loop. -/
inductive Rounds (itime : List Ens → List Fl) (moves : Nat → Nat → Pos → Move) (cfg : McConfig) (st0 : McState) : Nat → McState → Prop
  | zero : Rounds itime moves cfg st0 0 st0
  | succ (r : Nat) (st st' : McState) : Rounds itime moves cfg st0 r st → mcmcRound itime moves cfg st = .ok st' → Rounds itime moves cfg st0 (r + 1) st'

end Radvel
