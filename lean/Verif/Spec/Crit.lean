import Verif.Model.Crit
import Verif.Spec.Pipeline
import Mathlib.Data.Rat.Defs
import Mathlib.Algebra.Order.Ring.Unbundled.Rat

/-! Specification for the table of convergence criteria: how numbers are written, what a row shows, and what may happen between sampling and reporting. Decimals are those of Spec/Driver. -/

namespace Radvel

/-- The numbers that a criterion can have: sign and size, an infinity, or nan. -/
inductive CritNum
  | num (negative : Bool) (size : ℚ)
  | inf (negative : Bool)
  | nan

/-- The minus sign. -/
def minusText (negative : Bool) : Text := if negative then ['-'] else []

/-- How numbers are written to the status file (`-3.25`, `1e-05`, `40`, `inf`, `-inf`, `nan`). -/
inductive Writes : Text → CritNum → Prop
  | num (t : Text) (neg : Bool) (m : Nat) (e : Int) : DecText t neg m e → Writes t (.num neg (m * (10 : ℚ) ^ e))
  | inf (neg : Bool) : Writes (minusText neg ++ "inf".toList) (.inf neg)
  | nan : Writes "nan".toList .nan

/-- What is printed for a number: its sign, and a decimal with exactly three places that is at most half a thousandth away. -/
inductive Shows3 : CritNum → Text → Prop
  | num (neg : Bool) (x : ℚ) (a b : Text) : Digits a → (a = ['0'] ∨ a.head? ≠ some '0') → Digits b → b.length = 3 → |x - numeral (a ++ b) / 1000| ≤ 1 / 2000 →
      Shows3 (.num neg x) (minusText neg ++ a ++ ['.'] ++ b)
  | inf (neg : Bool) : Shows3 (.inf neg) (minusText neg ++ "inf".toList)
  | nan : Shows3 .nan "nan".toList

/-- A row of the table: the name, and the number between dollar signs with spaces before it up to a width of seven. -/
def CritLine (name : String) (x : CritNum) (line : Text) : Prop :=
  ∃ spaces shown, line = name.toList ++ " & $".toList ++ spaces ++ shown ++ ['$'] ∧ Shows3 x shown ∧ (∀ c ∈ spaces, c = ' ') ∧ spaces.length + shown.length = max 7 shown.length

/-- What may happen after sampling: other commands, whether they succeed or raise, MCMC runs that raise, and any change to the output files. -/
inductive AfterMcmc (pre : Text) (w : World) : World → Prop
  | now : AfterMcmc pre w w
  | other (w' : World) (c : Command) (o : Oracle) : AfterMcmc pre w w' → c.Plain → (∀ num, c ≠ .mcmc num) → AfterMcmc pre w (runCommand pre o c w').2
  | failed (w' : World) (num : McmcNumbers) (o : Oracle) (e : PyErr) : AfterMcmc pre w w' → num.Plain → (mcmcCmd pre num o w').1 = .error e → AfterMcmc pre w (mcmcCmd pre num o w').2
  | edit (w' : World) (files : Dict Text Content) : AfterMcmc pre w w' → AfterMcmc pre w { w' with files := files }

end Radvel
