import Verif.Model.Driver
import Mathlib.Data.Nat.Digits.Defs

/-! Specification for C82 and C83: which sampler has been run, and what integers, decimals and keyword strings look like. -/

namespace Radvel

/-- The status says that this sampler has been run. -/
def Ran (c : Config) (s : Text) : Prop := ∃ d v, c.get? s = some d ∧ d.get? "run".toList = some v ∧ lower v ∈ ["1".toList, "yes".toList, "true".toList, "on".toList]

/-- The status says that this sampler has not been run, or nothing about it. -/
def NotRan (c : Config) (s : Text) : Prop :=
  s ∉ c.keys ∨ ∃ d v, c.get? s = some d ∧ d.get? "run".toList = some v ∧ lower v ∈ ["0".toList, "no".toList, "false".toList, "off".toList]

/-- A decimal digit. -/
def IsDigit (c : Char) : Prop := '0' ≤ c ∧ c ≤ '9'

/-- The number written with these digits. -/
def numeral (g : Text) : Nat := Nat.ofDigits 10 ((g.map fun c => c.toNat - 48).reverse)

/-- A non-empty text of digits. -/
def Digits (g : Text) : Prop := g ≠ [] ∧ ∀ c ∈ g, IsDigit c

/-- Integer literals: white space, a sign or none, groups of digits with underscores between the groups, white space. -/
def IntText (t : Text) (n : Int) : Prop :=
  ∃ (s : Text) (gs : List Text), gs ≠ [] ∧ (∀ g ∈ gs, Digits g) ∧ strip t = s ++ List.intercalate ['_'] gs ∧
    ((s = ['-'] ∧ n = -(numeral gs.flatten : Int)) ∨ ((s = ['+'] ∨ s = []) ∧ n = (numeral gs.flatten : Int)))

/-- The digits of a decimal, with a point or without: the number is `m · 10^i`. -/
inductive MantissaText : Text → Nat → Int → Prop
  | whole (a : Text) : Digits a → MantissaText a (numeral a) 0
  | point (a b : Text) : (∀ c ∈ a, IsDigit c) → (∀ c ∈ b, IsDigit c) → a ++ b ≠ [] → MantissaText (a ++ '.' :: b) (numeral (a ++ b)) (-(b.length : Int))

/-- An exponent, or none. -/
inductive ExponentText : Text → Int → Prop
  | none : ExponentText [] 0
  | bare (c : Char) (x : Text) : c = 'e' ∨ c = 'E' → Digits x → ExponentText (c :: x) (numeral x)
  | plus (c : Char) (x : Text) : c = 'e' ∨ c = 'E' → Digits x → ExponentText (c :: '+' :: x) (numeral x)
  | minus (c : Char) (x : Text) : c = 'e' ∨ c = 'E' → Digits x → ExponentText (c :: '-' :: x) (-(numeral x : Int))

/-- A sign, or none; true for minus. -/
inductive SignText : Text → Bool → Prop
  | none : SignText [] false
  | plus : SignText ['+'] false
  | minus : SignText ['-'] true

/-- Decimals: the number is `± m · 10^e`. -/
def DecText (t : Text) (negative : Bool) (m : Nat) (e : Int) : Prop :=
  ∃ s a x i j, SignText s negative ∧ MantissaText a m i ∧ ExponentText x j ∧ t = s ++ (a ++ x) ∧ e = i + j

/-- A text that may stand for a key or a value in a keyword string. -/
def Word (t : Text) : Prop := ' ' ∉ t ∧ '=' ∉ t

/-- The keyword string of a list of pairs. -/
def kwargsText (pairs : List (Text × Text)) : Text := List.intercalate [' '] (pairs.map fun p => p.1 ++ '=' :: p.2)

end Radvel
