import Verif.Model.Report
import Verif.Lemmas.Dict
import Mathlib.Data.List.Basic
import Mathlib.Tactic.SplitIfs
import Mathlib.Tactic.ByContra

/-! # Lemmas on the report's tables -/

namespace Radvel

theorem isInfix_iff (s l : Text) : isInfix s l = true ↔ s <:+: l := by
  induction l with
  | nil => simp [isInfix, List.isEmpty_iff]
  | cons c t ih =>
    rw [isInfix, Bool.or_eq_true, ih, List.isPrefixOf_iff_prefix, List.infix_cons_iff]

/-- A word: not empty and without white space. -/
def IsWord (w : Text) : Prop := w ≠ [] ∧ ∀ c ∈ w, isSpace c = false

theorem splitWordsAux_word (cur w t : Text) (hw : ∀ c ∈ w, isSpace c = false) : splitWordsAux cur (w ++ t) = splitWordsAux (cur ++ w) t := by
  induction w generalizing cur with
  | nil => simp
  | cons c w ih =>
    have hc := hw c (List.mem_cons_self ..)
    rw [List.cons_append, splitWordsAux, hc]
    simp only [Bool.false_eq_true, if_false]
    rw [ih _ (fun c' h => hw c' (List.mem_cons_of_mem _ h)), List.append_assoc]
    rfl

theorem splitWords_joinWords (ws : List Text) (h : ∀ w ∈ ws, IsWord w) : splitWords (joinWords ws) = ws := by
  unfold splitWords
  induction ws with
  | nil => rfl
  | cons w ws ih =>
    obtain ⟨h0, hs⟩ := h w (List.mem_cons_self ..)
    have hr := fun w' h' => h w' (List.mem_cons_of_mem _ h')
    cases ws with
    | nil =>
      have := splitWordsAux_word [] w [] hs
      rw [List.append_nil] at this
      simp only [joinWords]
      rw [this]
      simp [splitWordsAux, h0]
    | cons w' ws' =>
      simp only [joinWords]
      rw [splitWordsAux_word [] w _ hs, List.nil_append, splitWordsAux]
      have : isSpace ' ' = true := by decide
      rw [this, if_pos rfl, if_neg h0]
      congr 1
      exact ih hr

/-- What `str.split()` returns are words. -/
theorem isWord_of_mem_splitWordsAux (cur t : Text) (hc : ∀ c ∈ cur, isSpace c = false) (w : Text) (hw : w ∈ splitWordsAux cur t) : IsWord w := by
  induction t generalizing cur with
  | nil =>
    rw [splitWordsAux] at hw
    split_ifs at hw with h
    · simp at hw
    · rw [List.mem_singleton] at hw; subst hw; exact ⟨h, hc⟩
  | cons c t ih =>
    rw [splitWordsAux] at hw
    split_ifs at hw with h1 h2
    · exact ih [] (by simp) hw
    · rcases List.mem_cons.1 hw with rfl | hw
      · exact ⟨h2, hc⟩
      · exact ih [] (by simp) hw
    · refine ih _ ?_ hw
      intro c' h'
      rcases List.mem_append.1 h' with h' | h'
      · exact hc c' h'
      · rw [List.mem_singleton] at h'; subst h'; exact Bool.eq_false_iff.2 h1

theorem isWord_of_mem_splitWords (t w : Text) (hw : w ∈ splitWords t) : IsWord w :=
  isWord_of_mem_splitWordsAux [] t (by simp) w hw

theorem splitWords_printBasis : splitWords printBasis = ["per".toList, "tc".toList, "tp".toList, "e".toList, "w".toList, "k".toList] := by decide

theorem digits_ne_nil (n : Nat) : digits n ≠ [] := Nat.toDigits_ne_nil

theorem digits_isDigit (n : Nat) (c : Char) (hc : c ∈ digits n) : c.isDigit = true := Nat.isDigit_of_mem_toDigits (by decide) (by decide) hc

theorem isSpace_of_isDigit (c : Char) (h : c.isDigit = true) : isSpace c = false := by
  rw [Bool.eq_false_iff]
  intro hs
  unfold isSpace at hs
  simp only [Bool.or_eq_true, decide_eq_true_eq] at hs
  rcases hs with ((((rfl | rfl) | rfl) | rfl) | rfl) | rfl <;> exact absurd h (by decide)

/-- The numbers a row shows: the requested column if there is one. -/
theorem dataRow_column (units : Dict Text Text) (suf : List Text) (r : ReportNames) (n : Nat) (p : Text) (h : p ++ digits n ∈ r.columns) :
    dataRow units suf r n p = if p ++ digits n ∈ r.maxparams ∧ p ++ digits n ∈ r.labels then some { source := p ++ digits n, unit := rowUnit units suf p (p ++ digits n) } else none := by
  unfold dataRow texRow rowName
  simp only [h, if_true, true_and]
  split_ifs <;> rfl

theorem digits_one : digits 1 = ['1'] := by decide

/-- The row of an extra parameter. -/
theorem dataRow_extra (units : Dict Text Text) (suf : List Text) (r : ReportNames) (p : Text) (h : p ++ digits 1 ∉ r.columns) :
    dataRow units suf r 1 p = if p ∈ r.columns ∧ p ∈ r.maxparams ∧ p ∈ r.labels then some { source := p, unit := rowUnit units suf p (p ++ digits 1) } else none := by
  unfold dataRow texRow rowName
  rw [if_neg h]
  have : (p ++ digits 1).dropLast = p := by rw [digits_one]; simp
  simp only [this]
  split_ifs <;> rfl

theorem filterMap_source (f : Text → Option TexRow) (g : Text → Text) (q : Text → Bool) (l : List Text) (h : ∀ p ∈ l, (f p).map TexRow.source = if q (g p) then some (g p) else none) :
    (l.filterMap f).map TexRow.source = (l.map g).filter q := by
  induction l with
  | nil => rfl
  | cons p l ih =>
    have hp := h p (List.mem_cons_self ..)
    have hl := ih fun p' h' => h p' (List.mem_cons_of_mem _ h')
    rw [List.map_cons, List.filter_cons, List.filterMap_cons]
    rcases hf : f p with _ | row
    · rw [hf] at hp
      split_ifs at hp ⊢ with hq
      · simp at hp
      · exact hl
    · rw [hf] at hp
      split_ifs at hp ⊢ with hq
      · simp only [Option.map_some, Option.some.injEq] at hp
        rw [List.map_cons, hl, hp]
      · simp at hp

theorem count_orderGroup (extra : List Text) (o p : Text) (hp : p ∈ extra) : (orderGroup extra o).count p = if isInfix o p then extra.count p else 0 := by
  unfold orderGroup
  simp only [List.count_reverse]
  rw [(List.perm_insertionSort _ _).count_eq]
  split_ifs with h0 h1 h1
  · exfalso
    have : p ∈ extra.filter fun p => isInfix o p := List.mem_filter.2 ⟨hp, h1⟩
    rw [h0] at this
    cases this
  · rw [List.count_eq_zero, List.mem_singleton]
    rintro rfl
    exact h1 ((isInfix_iff _ _).2 (List.infix_refl _))
  · rw [List.count_filter h1]
  · rw [List.count_eq_zero, List.mem_filter]
    rintro ⟨_, h⟩
    exact h1 h

theorem mem_orderGroup (extra : List Text) (o w : Text) (h : w ∈ orderGroup extra o) : (w ∈ extra ∧ isInfix o w = true) ∨ (w = o ∧ ∀ p ∈ extra, isInfix o p = false) := by
  unfold orderGroup at h
  simp only [List.mem_reverse, List.mem_insertionSort] at h
  split_ifs at h with h0
  · right
    refine ⟨by simpa using h, fun p hp => ?_⟩
    rw [Bool.eq_false_iff]
    intro hi
    have : p ∈ extra.filter fun p => isInfix o p := List.mem_filter.2 ⟨hp, hi⟩
    rw [h0] at this
    cases this
  · left; simpa [List.mem_filter] using h

theorem removeAux_skip (s a t : Text) : removeAux s a.length (a ++ t) = removeAux s 0 t := by
  induction a with
  | nil => rfl
  | cons c a ih => simpa [removeAux] using ih

/-- Removing a suffix that begins with an underscore from a name without underscores before it. -/
theorem removeAll_suffix (base inst : Text) (hb : '_' ∉ base) : removeAll ('_' :: inst) (base ++ '_' :: inst) = base := by
  unfold removeAll
  induction base with
  | nil =>
    rw [List.nil_append, removeAux, if_pos (by rw [List.isPrefixOf_iff_prefix])]
    have := removeAux_skip ('_' :: inst) inst []
    simpa [removeAux] using this
  | cons c b ih =>
    have hc : '_' ≠ c := by rintro rfl; exact hb (List.mem_cons_self ..)
    rw [List.cons_append, removeAux, if_neg, ih (fun h => hb (List.mem_cons_of_mem _ h))]
    rw [List.isPrefixOf_iff_prefix, List.cons_prefix_cons]
    exact fun h => hc h.1

theorem count_subscripts (inst : Text) (c : Char) (h : c ∉ inst) : (subscripts inst).count c = if c = '_' then 0 else inst.count '_' * ("$_{\\rm ".toList.count c) := by
  induction inst with
  | nil => simp [subscripts]
  | cons a t ih =>
    have ha : c ≠ a := by rintro rfl; exact h (List.mem_cons_self ..)
    have ht := ih fun h' => h (List.mem_cons_of_mem _ h')
    rw [subscripts]
    by_cases hu : a = '_'
    · subst hu
      rw [if_pos rfl, List.count_append, ht, if_neg ha, if_neg ha, List.count_cons_self]
      ring
    · rw [if_neg hu, List.count_cons_of_ne (fun h' => ha h'.symm), ht, List.count_cons_of_ne hu]

end Radvel
