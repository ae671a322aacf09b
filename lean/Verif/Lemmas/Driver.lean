import Verif.Spec.Driver
import Verif.Lemmas.Dict
import Mathlib.Tactic.SplitIfs
import Mathlib.Tactic.Ring
import Mathlib.Data.Nat.Digits.Lemmas

/-! Helper lemmas for C82 and C83. -/

namespace Radvel

theorem splitChar_ne_nil (sep : Char) (t : Text) : splitChar sep t ≠ [] := by
  cases t with
  | nil => simp [splitChar]
  | cons c t =>
    unfold splitChar
    split_ifs
    · simp
    · split <;> simp

theorem splitChar_word (sep : Char) (t : Text) (h : sep ∉ t) : splitChar sep t = [t] := by
  induction t with
  | nil => rfl
  | cons c t ih =>
    simp only [List.mem_cons, not_or] at h
    unfold splitChar
    rw [if_neg (Ne.symm h.1), ih h.2]

theorem splitChar_append (sep : Char) (a b : Text) (h : sep ∉ a) : splitChar sep (a ++ sep :: b) = a :: splitChar sep b := by
  induction a with
  | nil => simp [splitChar]
  | cons c t ih =>
    simp only [List.mem_cons, not_or] at h
    rw [List.cons_append]
    conv_lhs => unfold splitChar
    rw [if_neg (Ne.symm h.1), ih h.2]

theorem splitChar_intercalate (sep : Char) (l : List Text) (h : ∀ x ∈ l, sep ∉ x) (hne : l ≠ []) : splitChar sep (List.intercalate [sep] l) = l := by
  induction l with
  | nil => exact absurd rfl hne
  | cons a t ih =>
    cases t with
    | nil => simpa using splitChar_word sep a (h a (by simp))
    | cons b t =>
      have : List.intercalate [sep] (a :: b :: t) = a ++ sep :: List.intercalate [sep] (b :: t) := by simp [List.intercalate]
      rw [this, splitChar_append sep _ _ (h a (by simp)), ih (fun x hx => h x (by simp [hx])) (by simp)]

theorem addPair_word (d : Dict Text KwVal) (p : Text × Text) (h1 : Word p.1) (h2 : Word p.2) : addPair d (p.1 ++ '=' :: p.2) = .ok (Dict.set d p.1 (castStrArg p.2)) := by
  unfold addPair
  rw [splitChar_append _ _ _ h1.2, splitChar_word _ _ h2.2]

theorem addPair_fold (pairs : List (Text × Text)) (d : Dict Text KwVal) (h : ∀ p ∈ pairs, Word p.1 ∧ Word p.2) :
    (pairs.map fun p => p.1 ++ '=' :: p.2).foldlM addPair d = .ok (pairs.foldl (fun d p => Dict.set d p.1 (castStrArg p.2)) d) := by
  induction pairs generalizing d with
  | nil => rfl
  | cons p t ih =>
    have hp := h p (by simp)
    rw [List.map_cons, List.foldlM_cons, addPair_word d p hp.1 hp.2]
    exact ih _ fun q hq => h q (by simp [hq])

theorem fold_get? (pairs : List (Text × Text)) (d : Dict Text KwVal) (k : Text) :
    Dict.get? (pairs.foldl (fun d p => Dict.set d p.1 (castStrArg p.2)) d) k = ((pairs.reverse.find? fun p => p.1 = k).map fun p => castStrArg p.2).or (d.get? k) := by
  induction pairs generalizing d with
  | nil => simp
  | cons p t ih =>
    rw [List.foldl_cons, ih, List.reverse_cons, List.find?_append, Dict.get?_set]
    rcases List.find? _ _ with _ | q
    · by_cases hk : p.1 = k <;> simp [hk]
    · simp

theorem fold_keys (pairs : List (Text × Text)) (d : Dict Text KwVal) (hn : d.keys.Nodup) : (Dict.keys (pairs.foldl (fun d p => Dict.set d p.1 (castStrArg p.2)) d)).Nodup := by
  induction pairs generalizing d with
  | nil => exact hn
  | cons p t ih => exact ih _ (Dict.nodup_keys_set d _ _ hn)

theorem digitVal_some {c : Char} {d : Nat} : digitVal c = some d ↔ IsDigit c ∧ d = c.toNat - 48 := by
  unfold digitVal IsDigit
  split_ifs with h
  · simp [h, eq_comm]
  · simp [h]

theorem digitVal_of {c : Char} (h : IsDigit c) : digitVal c = some (c.toNat - 48) := digitVal_some.2 ⟨h, rfl⟩

theorem digitVal_isSome {c : Char} : (digitVal c).isSome = true ↔ IsDigit c := by
  unfold digitVal IsDigit
  split_ifs with h <;> simp [h]

theorem digit_ne_underscore {c : Char} (h : IsDigit c) : c ≠ '_' := by
  rintro rfl
  exact absurd h (by unfold IsDigit; decide)

/-- The value of digits after the number `acc`. -/
theorem numeral_append (a b : Text) : numeral (a ++ b) = numeral a * 10 ^ b.length + numeral b := by
  unfold numeral
  rw [List.map_append, List.reverse_append, Nat.ofDigits_append]
  simp
  ring

theorem numeral_cons (c : Char) (t : Text) : numeral (c :: t) = (c.toNat - 48) * 10 ^ t.length + numeral t := by
  have := numeral_append [c] t
  simpa [numeral] using this

theorem numeral_singleton (c : Char) : numeral [c] = c.toNat - 48 := by simp [numeral]

theorem numeral_nil : numeral [] = 0 := by simp [numeral]

theorem digitsValue_fold (t : Text) (acc : Nat) (h : ∀ c ∈ t, IsDigit c) : t.foldl (fun acc c => 10 * acc + (digitVal c).getD 0) acc = acc * 10 ^ t.length + numeral t := by
  induction t generalizing acc with
  | nil => simp [numeral_nil]
  | cons c t ih =>
    rw [List.foldl_cons, ih _ fun x hx => h x (by simp [hx]), digitVal_of (h c (by simp)), numeral_cons]
    simp only [Option.getD_some, List.length_cons, pow_succ]
    ring

theorem digitsValue_eq (t : Text) (h : ∀ c ∈ t, IsDigit c) : digitsValue t = numeral t := by
  unfold digitsValue
  rw [digitsValue_fold t 0 h]
  simp

/-- The scan of an integer's digits, in terms of groups of digits. -/
theorem scanInt_iff (t : Text) (acc n : Nat) (prev : Bool) :
    scanInt acc prev t = some n ↔
      (∃ gs : List Text, gs ≠ [] ∧ (∀ g ∈ gs, Digits g) ∧ t = List.intercalate ['_'] gs ∧ n = acc * 10 ^ gs.flatten.length + numeral gs.flatten) ∨
      (prev = true ∧ ((t = [] ∧ n = acc) ∨
        ∃ gs : List Text, gs ≠ [] ∧ (∀ g ∈ gs, Digits g) ∧ t = '_' :: List.intercalate ['_'] gs ∧ n = acc * 10 ^ gs.flatten.length + numeral gs.flatten)) := by
  have inter_ne : ∀ gs : List Text, gs ≠ [] → (∀ g ∈ gs, Digits g) → List.intercalate ['_'] gs ≠ [] := by
    intro gs hne h h'
    obtain ⟨g, r, rfl⟩ := List.exists_cons_of_ne_nil hne
    have := (h g (by simp)).1
    cases r with
    | nil => simp [List.intercalate] at h'; exact this h'
    | cons b r => simp [List.intercalate] at h'
  have inter_head : ∀ (gs : List Text) (c : Char) (r : Text), gs ≠ [] → (∀ g ∈ gs, Digits g) → c :: r = List.intercalate ['_'] gs →
      IsDigit c ∧ ((r = [] ∧ gs = [[c]]) ∨ (∃ g gs', gs = (c :: g) :: gs' ∧ g ≠ [] ∧ r = List.intercalate ['_'] (g :: gs')) ∨
        ∃ gs', gs = [c] :: gs' ∧ gs' ≠ [] ∧ r = '_' :: List.intercalate ['_'] gs') := by
    intro gs c r hne h he
    obtain ⟨g, gs', rfl⟩ := List.exists_cons_of_ne_nil hne
    have hg := h g (by simp)
    obtain ⟨x, g', rfl⟩ := List.exists_cons_of_ne_nil hg.1
    have : List.intercalate ['_'] ((x :: g') :: gs') = x :: List.intercalate ['_'] (g' :: gs') := by
      cases gs' <;> simp [List.intercalate]
    rw [this] at he
    obtain ⟨rfl, rfl⟩ := List.cons.inj he
    refine ⟨hg.2 c (by simp), ?_⟩
    by_cases hg' : g' = []
    · subst hg'
      cases gs' with
      | nil => left; simp [List.intercalate]
      | cons b gs'' => right; right; exact ⟨b :: gs'', rfl, by simp, by simp [List.intercalate]⟩
    · right; left; exact ⟨g', gs', rfl, hg', rfl⟩
  induction t generalizing acc prev with
  | nil =>
    unfold scanInt
    cases prev with
    | false =>
      constructor
      · intro h; simp at h
      · rintro (⟨gs, hne, h, he, _⟩ | ⟨h, _⟩)
        · exact absurd he.symm (inter_ne gs hne h)
        · cases h
    | true =>
      constructor
      · intro h; simp at h; exact .inr ⟨rfl, .inl ⟨rfl, h.symm⟩⟩
      · rintro (⟨gs, hne, h, he, _⟩ | ⟨_, ⟨_, rfl⟩ | ⟨gs, _, _, he, _⟩⟩)
        · exact absurd he.symm (inter_ne gs hne h)
        · rfl
        · cases he
  | cons c t ih =>
    unfold scanInt
    by_cases hc : c = '_'
    · subst hc
      rw [if_pos rfl]
      cases prev with
      | false =>
        constructor
        · intro h; simp at h
        · rintro (⟨gs, hne, h, he, _⟩ | ⟨h, _⟩)
          · exact absurd rfl (digit_ne_underscore (inter_head gs _ _ hne h he).1)
          · cases h
      | true =>
        rw [if_pos rfl]
        refine Iff.trans (ih _ _) ?_
        constructor
        · rintro (⟨gs, hne, h, he, hn⟩ | ⟨h, _⟩)
          · exact .inr ⟨rfl, .inr ⟨gs, hne, h, by rw [he], hn⟩⟩
          · cases h
        · rintro (⟨gs, hne, h, he, _⟩ | ⟨_, ⟨h, _⟩ | ⟨gs, hne, h, he, hn⟩⟩)
          · exact absurd rfl (digit_ne_underscore (inter_head gs _ _ hne h he).1)
          · cases h
          · exact .inl ⟨gs, hne, h, (List.cons.inj he).2, hn⟩
    · rw [if_neg hc]
      by_cases hd : IsDigit c
      · rw [digitVal_of hd]
        refine Iff.trans (ih _ _) ?_
        constructor
        · rintro (⟨gs, hne, h, he, hn⟩ | ⟨_, ⟨rfl, rfl⟩ | ⟨gs, hne, h, he, hn⟩⟩)
          · obtain ⟨g, gs', rfl⟩ := List.exists_cons_of_ne_nil hne
            refine .inl ⟨(c :: g) :: gs', by simp, ?_, ?_, ?_⟩
            · intro x hx
              rcases List.mem_cons.1 hx with rfl | hx
              · refine ⟨by simp, ?_⟩
                intro y hy
                rcases List.mem_cons.1 hy with rfl | hy
                · exact hd
                · exact (h g (by simp)).2 y hy
              · exact h x (by simp [hx])
            · rw [he]; cases gs' <;> simp [List.intercalate]
            · rw [hn]
              simp only [List.flatten_cons, List.cons_append, numeral_cons, List.length_cons, pow_succ]
              ring
          · refine .inl ⟨[[c]], by simp, ?_, by simp [List.intercalate], ?_⟩
            · intro x hx
              simp at hx
              subst hx
              exact ⟨by simp, by simpa using hd⟩
            · simp [numeral_singleton]; ring
          · refine .inl ⟨[c] :: gs, by simp, ?_, ?_, ?_⟩
            · intro x hx
              rcases List.mem_cons.1 hx with rfl | hx
              · exact ⟨by simp, by simpa using hd⟩
              · exact h x hx
            · rw [he]
              obtain ⟨g, gs', rfl⟩ := List.exists_cons_of_ne_nil hne
              simp [List.intercalate]
            · rw [hn]
              simp only [List.flatten_cons, List.cons_append, List.nil_append, numeral_cons, List.length_cons, pow_succ]
              ring
        · rintro (⟨gs, hne, h, he, hn⟩ | ⟨_, ⟨h, _⟩ | ⟨gs, _, _, he, _⟩⟩)
          · rcases (inter_head gs _ _ hne h he).2 with ⟨rfl, rfl⟩ | ⟨g, gs', rfl, hg, rfl⟩ | ⟨gs', rfl, hg, rfl⟩
            · refine .inr ⟨rfl, .inl ⟨rfl, ?_⟩⟩
              rw [hn]
              simp [numeral_singleton]
              ring
            · refine .inl ⟨g :: gs', by simp, ?_, rfl, ?_⟩
              · intro x hx
                rcases List.mem_cons.1 hx with rfl | hx
                · exact ⟨hg, fun y hy => (h (c :: x) (by simp)).2 y (by simp [hy])⟩
                · exact h x (by simp [hx])
              · rw [hn]
                simp only [List.flatten_cons, List.cons_append, numeral_cons, List.length_cons, pow_succ]
                ring
            · refine .inr ⟨rfl, .inr ⟨gs', hg, fun x hx => h x (by simp [hx]), rfl, ?_⟩⟩
              rw [hn]
              simp only [List.flatten_cons, List.cons_append, List.nil_append, numeral_cons, List.length_cons, pow_succ]
              ring
          · cases h
          · exact absurd (List.cons.inj he).1 hc
      · have : digitVal c = none := by
          rcases hv : digitVal c with _ | v
          · rfl
          · exact absurd (digitVal_some.1 hv).1 hd
        rw [this]
        constructor
        · intro h; cases h
        · rintro (⟨gs, hne, h, he, _⟩ | ⟨_, ⟨h, _⟩ | ⟨gs, _, _, he, _⟩⟩)
          · exact absurd (inter_head gs _ _ hne h he).1 hd
          · cases h
          · exact absurd (List.cons.inj he).1 hc

end Radvel
