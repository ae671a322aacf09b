import Verif.Model.TexLabels
import Verif.Props.Keys

/-!
# C09: labels identify planet and parameter
-/

namespace Radvel

/-- Specification: the symbol of each parameter. -/
def PName.symbol : PName → String
  | .per => "P" | .logper => "\\ln{P}" | .tc => "T\\rm{conj}" | .tp => "T\\rm{peri}"
  | .secosw => "\\sqrt{e}\\cos{\\omega}" | .ecosw => "e\\cos{\\omega}" | .e => "e" | .se => "se"
  | .sesinw => "\\sqrt{e}\\sin{\\omega}" | .esinw => "e\\sin{\\omega}" | .w => "\\omega" | .k => "K" | .logk => "\\ln{K}"

/-- Specification: planet 1 is `b`, planet 2 is `c`, ... -/
def planetLetter (n : Nat) : Char := Char.ofNat ('a'.toNat + n)

/-- C09, provable part (nine planets): the label is the parameter's symbol with the planet's letter. -/
theorem C09_label_partial (p : PName) (n : Nat) (h1 : 1 ≤ n) (h9 : n ≤ 9) :
    texLabel none (Key.orb p n).render =
      some (.ok ("$".toList ++ p.symbol.toList ++ "_{".toList ++ [planetLetter n] ++ "}$".toList)) := by
  have : ∀ p : PName, ∀ n : Fin 10, texLabel none (Key.orb p n.val).render =
      some (.ok ("$".toList ++ p.symbol.toList ++ "_{".toList ++ [planetLetter n.val] ++ "}$".toList)) := by
    intro p; cases p <;> decide +kernel
  exact this p ⟨n, by omega⟩

/-- C09 with custom planet letters: the label carries the letter given for that planet. -/
theorem C09_custom_letters_partial (p : PName) (n : Nat) (h1 : 1 ≤ n) (h9 : n ≤ 9) (l : Dict Nat String) (s : String)
    (hl : l.get? n = some s) :
    texLabel (some l) (Key.orb p n).render =
      some (.ok ("$".toList ++ p.symbol.toList ++ "_{".toList ++ s.toList ++ "}$".toList)) := by
  have key : ∀ p : PName, ∀ n : Fin 10,
      (Key.orb p n.val).render.getLast? = some (Nat.digitChar n.val) ∧
      (Key.orb p n.val).render.dropLast = p.chars ∧ (Nat.digitChar n.val).isDigit = true ∧
      (Nat.digitChar n.val).toNat - 48 = n.val ∧ isInfix "gamma".toList p.chars = false ∧
      isInfix "jit".toList p.chars = false ∧ texName p.chars = p.symbol.toList := by
    intro p; cases p <;> decide +kernel
  obtain ⟨a1, a2, a3, a4, a5, a6, a7⟩ := key p ⟨n, by omega⟩
  simp only at a1 a2 a3 a4
  simp only [texLabel, a1, a2, a3, a4, a5, a6, planetTexLabel, hl, a7]
  rfl

/-- C09: up to nine planets two different keys never get the same label. -/
theorem C09_distinct_partial (p q : PName) (m n : Nat) (hm : 1 ≤ m) (hm9 : m ≤ 9) (hn : 1 ≤ n) (hn9 : n ≤ 9)
    (h : texLabel none (Key.orb p m).render = texLabel none (Key.orb q n).render) : p = q ∧ m = n := by
  rw [C09_label_partial p m hm hm9, C09_label_partial q n hn hn9] at h
  have h := Except.ok.inj (Option.some.inj h)
  have h1 := List.append_cancel_right h
  have hlast := congrArg List.getLast? h1
  simp only [List.getLast?_append, List.getLast?_singleton, Option.some_or] at hlast
  have hmn : m = n := by
    have : ∀ a b : Fin 10, planetLetter a.val = planetLetter b.val → a = b := by decide +kernel
    have := this ⟨m, by omega⟩ ⟨n, by omega⟩ (Option.some.inj hlast)
    simpa using congrArg Fin.val this
  subst hmn
  have h2 := List.append_cancel_right (List.append_cancel_right h1)
  refine ⟨?_, rfl⟩
  revert h2
  cases p <;> cases q <;> first | (intro _; rfl) | (intro h; revert h; decide +kernel)

example : texLabel none (Key.orb .secosw 3).render = some (.ok "$\\sqrt{e}\\cos{\\omega}_{d}$".toList) := by decide +kernel

/-- C09 is false from the tenth planet on: `per10` is labelled `per1` of planet `a` ... -/
theorem C09_tenth_violated :
    texLabel none (Key.orb .per 10).render = some (.ok "$per1_{a}$".toList) ∧
    texLabel none (Key.orb .per 10).render ≠
      some (.ok ("$".toList ++ PName.per.symbol.toList ++ "_{".toList ++ [planetLetter 10] ++ "}$".toList)) := by
  decide +kernel

/-- ... and with custom letters for planets 1 to 10 the call raises `KeyError` (letter of planet 0). -/
theorem C09_tenth_letters_violated :
    texLabel (some ((List.range 10).map (fun i => (i + 1, "x")))) (Key.orb .per 10).render = some (.error .keyError) := by
  decide +kernel

end Radvel
