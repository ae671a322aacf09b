import Verif.Lemmas.Like

/-!
# The structured keys of the model are faithful to the code's strings
-/

namespace Radvel

variable {α : Type}

/-! ## Keys are strings: the structured keys lose nothing -/

theorem pname_chars_inj : ∀ p q : PName, p.chars = q.chars → p = q := by
  intro p q; cases p <;> cases q <;> first | (intro _; rfl) | (intro h; revert h; decide)

theorem pname_no_digit (p : PName) : ∀ c ∈ p.chars, c.isDigit = false := by
  cases p <;> decide

theorem span_digit (p : PName) (n : Nat) :
    (Key.orb p n).render.takeWhile (fun c => !c.isDigit) = p.chars ∧
    (Key.orb p n).render.dropWhile (fun c => !c.isDigit) = Nat.toDigits 10 n := by
  have h1 : ∀ c ∈ p.chars, (fun c : Char => !c.isDigit) c = true := by
    intro c hc; simp [pname_no_digit p c hc]
  obtain ⟨d, ds, hd⟩ : ∃ d ds, Nat.toDigits 10 n = d :: ds := by
    cases h : Nat.toDigits 10 n with
    | nil => exact absurd h Nat.toDigits_ne_nil
    | cons d ds => exact ⟨d, ds, rfl⟩
  have hdd : d.isDigit = true := Nat.isDigit_of_mem_toDigits (b := 10) (n := n) (by decide) (by decide) (by rw [hd]; simp)
  unfold Key.render
  constructor
  · rw [List.takeWhile_append_of_pos h1, hd]; simp [hdd]
  · rw [List.dropWhile_append_of_pos h1, hd]; simp [hdd]

/-- The strings of planet keys determine parameter name and planet number, for any number of planets:
`'k1' ≠ 'k11'`, `'e1' ≠ 'se1'`, ... -/
theorem render_orb_injective (p q : PName) (m n : Nat) (h : (Key.orb p m).render = (Key.orb q n).render) :
    p = q ∧ m = n := by
  have h1 := span_digit p m
  have h2 := span_digit q n
  rw [h] at h1
  refine ⟨pname_chars_inj p q (h1.1.symm.trans h2.1), ?_⟩
  have := h1.2.symm.trans h2.2
  rw [← Nat.ofDigitChars_ten_toDigits (n := m), this, Nat.ofDigitChars_ten_toDigits]

/-- `k.startswith('gamma') or k.startswith('jit') or k.startswith('logjit') or k.startswith('gp')`,
/repo/radvel/model.py 197. -/
def startsWithInst (s : List Char) : Bool :=
  "gamma".toList.isPrefixOf s || "jit".toList.isPrefixOf s || "logjit".toList.isPrefixOf s || "gp".toList.isPrefixOf s

/-- The string test of the code recognises exactly the instrument keys among the keys it is applied to. -/
theorem startsWithInst_iff (k : Key) (hk : ∀ s, k ≠ .other s) : startsWithInst k.render = true ↔ ∃ g r, k = .inst g r := by
  cases k with
  | orb p n =>
    simp only [reduceCtorEq, exists_false, iff_false]
    cases p <;> simp [startsWithInst, Key.render, PName.chars, List.isPrefixOf]
  | dvdt => simp [startsWithInst, Key.render, List.isPrefixOf]
  | curv => simp [startsWithInst, Key.render, List.isPrefixOf]
  | inst g r =>
    simp only [Key.inst.injEq, exists_and_left, exists_eq', and_true, iff_true]
    cases g <;> simp [startsWithInst, Key.render, InstKind.chars, List.isPrefixOf]
  | other s => exact absurd rfl (hk s)

/-- Distinct keys have distinct strings (keys other than free-form user keys). -/
theorem render_injective (k k' : Key) (hk : ∀ s, k ≠ .other s) (hk' : ∀ s, k' ≠ .other s)
    (h : k.render = k'.render) : k = k' := by
  have hi := startsWithInst_iff k hk
  have hi' := startsWithInst_iff k' hk'
  rw [h] at hi
  have hii := hi.symm.trans hi'
  cases k with
  | other s => exact absurd rfl (hk s)
  | inst g r =>
    obtain ⟨g', r', rfl⟩ := hii.1 ⟨g, r, rfl⟩
    cases g <;> cases g' <;> simp [Key.render, InstKind.chars] at h ⊢ <;> exact String.toList_inj.1 h
  | orb p n =>
    cases k' with
    | other s => exact absurd rfl (hk' s)
    | inst g r => obtain ⟨_, _, h⟩ := hii.2 ⟨g, r, rfl⟩; cases h
    | orb q m => obtain ⟨rfl, rfl⟩ := render_orb_injective p q n m h; rfl
    | dvdt =>
      have h1 := (span_digit p n).2
      rw [h] at h1
      have : Nat.toDigits 10 n = [] := by rw [← h1]; decide
      exact absurd this Nat.toDigits_ne_nil
    | curv =>
      have h1 := (span_digit p n).2
      rw [h] at h1
      have : Nat.toDigits 10 n = [] := by rw [← h1]; decide
      exact absurd this Nat.toDigits_ne_nil
  | dvdt =>
    cases k' with
    | other s => exact absurd rfl (hk' s)
    | inst g r => obtain ⟨_, _, h⟩ := hii.2 ⟨g, r, rfl⟩; cases h
    | dvdt => rfl
    | curv => revert h; decide
    | orb q m =>
      have h1 := (span_digit q m).2
      rw [← h] at h1
      have : Nat.toDigits 10 m = [] := by rw [← h1]; decide
      exact absurd this Nat.toDigits_ne_nil
  | curv =>
    cases k' with
    | other s => exact absurd rfl (hk' s)
    | inst g r => obtain ⟨_, _, h⟩ := hii.2 ⟨g, r, rfl⟩; cases h
    | curv => rfl
    | dvdt => revert h; decide
    | orb q m =>
      have h1 := (span_digit q m).2
      rw [← h] at h1
      have : Nat.toDigits 10 m = [] := by rw [← h1]; decide
      exact absurd this Nat.toDigits_ne_nil

example : (Key.orb .secosw 12).render = "secosw12".toList ∧ (Key.inst .gamma "_hires_j").render = "gamma_hires_j".toList := by
  decide

end Radvel
