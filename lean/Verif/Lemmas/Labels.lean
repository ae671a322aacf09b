import Verif.Model.TexLabels
import Verif.Spec.Labels
import Verif.Lemmas.Report

/-!
Lemmas on `isInfix`, `replaceAll` and the loop of `tex_labels`.
-/

namespace Radvel

/-- No occurrence of `w` can begin inside `a`, whatever follows. -/
def noOverlap (w : List Char) : List Char → Bool
  | [] => true
  | c :: t => !(w.isPrefixOf (c :: t)) && !((c :: t).isPrefixOf w) && noOverlap w t

theorem prefix_append_cases {w s x : List Char} (h : w <+: s ++ x) : w <+: s ∨ s <+: w := by
  rcases Nat.le_total w.length s.length with hl | hl
  · exact Or.inl (List.prefix_of_prefix_length_le h (List.prefix_append s x) hl)
  · exact Or.inr (List.prefix_of_prefix_length_le (List.prefix_append s x) h hl)

theorem noOverlap_prefix {w : List Char} {c : Char} {t x : List Char} (h : noOverlap w (c :: t) = true) :
    w.isPrefixOf (c :: (t ++ x)) = false := by
  simp only [noOverlap, Bool.and_eq_true, Bool.not_eq_true'] at h
  rw [← Bool.not_eq_true]
  intro hp
  rcases prefix_append_cases (s := c :: t) (x := x) (List.isPrefixOf_iff_prefix.1 hp) with h1 | h1
  · have := List.isPrefixOf_iff_prefix.2 h1
    rw [h.1.1] at this; cases this
  · have := List.isPrefixOf_iff_prefix.2 h1
    rw [h.1.2] at this; cases this

theorem isInfix_append {w a : List Char} (h : noOverlap w a = true) (x : List Char) : isInfix w (a ++ x) = isInfix w x := by
  induction a with
  | nil => rfl
  | cons c t ih =>
    have hp := noOverlap_prefix (x := x) h
    simp only [noOverlap, Bool.and_eq_true] at h
    rw [List.cons_append, isInfix, hp, ih h.2, Bool.false_or]

theorem replaceAll_append {w a : List Char} (h : noOverlap w a = true) (new x : List Char) :
    replaceAll w new (a ++ x) = a ++ replaceAll w new x := by
  induction a with
  | nil => rfl
  | cons c t ih =>
    have hp := noOverlap_prefix (x := x) h
    simp only [noOverlap, Bool.and_eq_true] at h
    have ih := ih h.2
    unfold replaceAll at ih ⊢
    rw [List.cons_append, replaceFrom, hp, ih]
    rfl

theorem replaceAll_none {w : List Char} (new : List Char) : ∀ {x : List Char}, isInfix w x = false → replaceAll w new x = x
  | [], _ => rfl
  | c :: t, h => by
    simp only [isInfix, Bool.or_eq_false_iff] at h
    have ih := replaceAll_none new h.2
    unfold replaceAll at ih ⊢
    rw [replaceFrom, h.1, ih]
    rfl

theorem replaceFrom_skip (w new : List Char) : ∀ (a x : List Char), replaceFrom w new a.length (a ++ x) = replaceFrom w new 0 x
  | [], _ => rfl
  | _ :: t, x => replaceFrom_skip w new t x

theorem replaceAll_self {w : List Char} (hw : w ≠ []) (new x : List Char) :
    replaceAll w new (w ++ x) = new ++ replaceAll w new x := by
  cases w with
  | nil => exact absurd rfl hw
  | cons c t =>
    unfold replaceAll
    have hp : (c :: t).isPrefixOf (c :: (t ++ x)) = true := List.isPrefixOf_iff_prefix.2 (by rw [← List.cons_append]; exact List.prefix_append _ _)
    rw [List.cons_append, replaceFrom, hp, if_pos rfl, List.length_cons, Nat.add_sub_cancel, replaceFrom_skip]

/-- Does an entry of `texdict` apply to a key? -/
def applies (k : List Char) (e : List Char × List Char) : Bool := isInfix e.1 k && decide (e.1.length > 1)

theorem foldl_entryStep_none {k : List Char} : ∀ {l : List (List Char × List Char)} {acc : Option (List Char)},
    (∀ e ∈ l, applies k e = false) → l.foldl (entryStep k) acc = acc
  | [], _, _ => rfl
  | e :: l, acc, h => by
    have he := h e List.mem_cons_self
    rw [List.foldl_cons, foldl_entryStep_none (fun e' h' => h e' (List.mem_cons_of_mem _ h')), entryStep]
    rw [applies] at he
    rw [he]; rfl

theorem foldl_entryStep_last {k : List Char} {l : List (List Char × List Char)} {acc : Option (List Char)} (i : Nat)
    {e : List Char × List Char} (hi : l[i]? = some e) (he : applies k e = true) (hr : ∀ e' ∈ l.drop (i + 1), applies k e' = false) :
    l.foldl (entryStep k) acc = some (entryLabel k e) := by
  induction l generalizing i acc with
  | nil => cases hi
  | cons a l ih =>
    cases i with
    | zero =>
      simp only [List.getElem?_cons_zero, Option.some.injEq] at hi
      subst hi
      rw [List.foldl_cons, foldl_entryStep_none (by simpa using hr), entryStep]
      rw [applies] at he
      rw [he]; rfl
    | succ i =>
      rw [List.foldl_cons]
      exact ih i (by simpa using hi) (by simpa using hr)

theorem openBraces_cons (n : Nat) (c : Char) (t : List Char) :
    openBraces n (c :: t) = if c = '{' then openBraces (n + 1) t
      else if c = '}' then (match n with | 0 => none | m + 1 => openBraces m t) else openBraces n t := by
  cases n <;> rfl

/-- The position in `texdict` of the entry that gives the label. -/
def InstPar.index : InstPar → Nat
  | .gamma => 12 | .jit => 14 | .gpAmp => 17 | .gpExplength => 18 | .gpPer => 19 | .gpPerlength => 20 | .gpLength => 21 | .gpProt => 25

/-- That entry. -/
def InstPar.entry (q : InstPar) : List Char × List Char := (texdict[q.index]?).getD ([], [])

/-- The words of a basis as texts. -/
def BasisName.texts (b : BasisName) : List (List Char) := b.words.map PName.chars

theorem labelOf_entry {pp : List (List Char)} {letters : Option (Dict Nat String)} {k : List Char} (i : Nat) {e : List Char × List Char}
    (hk : k ≠ []) (h1 : texLabel letters k = none) (h2 : texdict.find? (fun x => x.1 == k) = none) (h3 : k.dropLast ∉ pp)
    (hi : texdict[i]? = some e) (he : applies k e = true) (hr : ∀ e' ∈ texdict.drop (i + 1), applies k e' = false) :
    labelOf pp letters k = .ok (entryLabel k e) := by
  rw [labelOf, if_neg hk, h1]
  simp only [h2]
  rw [if_neg h3, foldl_entryStep_last i hi he hr]
  rfl

theorem infix_false {w : String} {x : List Char} (h : ¬ w.toList <:+: x) : isInfix w.toList x = false := by
  rw [← Bool.not_eq_true, isInfix_iff]; exact h

theorem find_none {stem x : List Char} (hx : x ≠ []) (h : texdict.all (fun e => !stem.isPrefixOf e.1 || e.1 == stem) = true) :
    texdict.find? (fun e => e.1 == stem ++ x) = none := by
  rw [List.find?_eq_none]
  intro e he hb
  have h1 := List.all_eq_true.1 h e he
  have h2 : e.1 = stem ++ x := by simpa using hb
  have h3 : stem.isPrefixOf e.1 = true := List.isPrefixOf_iff_prefix.2 (by rw [h2]; exact List.prefix_append _ _)
  rw [h3] at h1
  have h4 : e.1 = stem := by simpa using h1
  rw [h2] at h4
  exact hx (List.append_right_eq_self.1 h4)

theorem dropLast_not_word {stem x : List Char} (hx : x ≠ []) (b : BasisName)
    (h : ([.per, .logper, .tc, .tp, .secosw, .ecosw, .e, .se, .sesinw, .esinw, .w, .k, .logk] : List PName).all (fun p => !stem.isPrefixOf p.chars) = true) :
    (stem ++ x).dropLast ∉ b.texts := by
  intro hm
  obtain ⟨p, _, hp⟩ := List.mem_map.1 hm
  rw [List.dropLast_append_of_ne_nil hx] at hp
  have h1 : stem.isPrefixOf p.chars = true := List.isPrefixOf_iff_prefix.2 (by rw [hp]; exact List.prefix_append _ _)
  have h2 := List.all_eq_true.1 h p (by cases p <;> decide)
  rw [h1] at h2; cases h2

theorem not_applies {stem x : List Char} {l : List (List Char × List Char)} (hx : PlainName x)
    (h : l.all (fun e => noOverlap e.1 stem && parWords.any (fun w => isInfix w.toList e.1)) = true) : ∀ e ∈ l, applies (stem ++ x) e = false := by
  intro e he
  have h1 := List.all_eq_true.1 h e he
  simp only [Bool.and_eq_true, List.any_eq_true] at h1
  obtain ⟨h1, w, hw, hi⟩ := h1
  rw [applies, isInfix_append h1]
  have : isInfix e.1 x = false := by
    rw [← Bool.not_eq_true, isInfix_iff]
    intro hc
    exact hx.2 w hw (((isInfix_iff _ _).1 hi).trans hc)
  rw [this]; rfl

theorem braceWord_end : ∀ {x : List Char}, isInfix "}_".toList x = false → isInfix "}_".toList (x ++ "}$".toList) = false
  | [], _ => by decide
  | [c], _ => by
    rw [← Bool.not_eq_true]
    intro h
    have h' : (c == '}' && decide (('}' : Char) = '_')) = true ∨ isInfix "}_".toList ['}', '$'] = true := by
      rcases Bool.or_eq_true _ _ ▸ h with h | h
      · left
        have h := List.isPrefixOf_iff_prefix.1 h
        obtain ⟨r, hr⟩ := h
        injection hr with h1 h2
        injection h2 with h2 h3
        exact absurd h2 (by decide)
      · exact Or.inr h
    rcases h' with h' | h'
    · simp at h'
    · revert h'; decide
  | c :: d :: t, h => by
    have h0 := h
    rw [isInfix, Bool.or_eq_false_iff] at h
    have ih := braceWord_end h.2
    rw [List.cons_append, isInfix, ih, Bool.or_false, ← Bool.not_eq_true]
    intro hp
    obtain ⟨r, hr⟩ := List.isPrefixOf_iff_prefix.1 hp
    injection hr with h1 h2
    injection h2 with h2 h3
    have : "}_".toList.isPrefixOf (c :: d :: t) = true := List.isPrefixOf_iff_prefix.2 ⟨t, by rw [← h1, ← h2]; rfl⟩
    rw [h.1] at this; cases this

theorem entryLabel_plain (q : InstPar) {x : List Char} (hx : PlainName x) :
    entryLabel (q.stem.toList ++ x) q.entry = "$".toList ++ q.opening.toList ++ x ++ "}$".toList := by
  have hb : isInfix "}_".toList x = false := infix_false (hx.2 "}_" (by decide))
  have tail := replaceAll_none (w := "}_".toList) ", \\rm ".toList (braceWord_end hb)
  have simple : ∀ (w new : List Char), w ≠ [] → isInfix w x = false → "gp_".toList.isPrefixOf (w ++ x) = false →
      entryLabel (w ++ x) (w, new) = "$".toList ++ new ++ x ++ "}$".toList := by
    intro w new hw hi hg
    rw [entryLabel]
    simp only
    rw [hg, replaceAll_self hw, replaceAll_none _ hi]
    simp
  have gp : ∀ (w front : List Char), w ≠ [] → noOverlap w "_".toList = true → isInfix w x = false → "gp_".toList.isPrefixOf (w ++ ("_".toList ++ x)) = true →
      noOverlap "}_".toList ("$".toList ++ front) = true →
      entryLabel (w ++ "_".toList ++ x) (w, front ++ "}".toList) = "$".toList ++ (front ++ ", \\rm ".toList) ++ x ++ "}$".toList := by
    intro w front hw hn hi hg hf
    rw [entryLabel]
    simp only
    rw [List.append_assoc w, hg, if_pos rfl, replaceAll_self hw, replaceAll_append hn, replaceAll_none _ hi]
    have e1 : "$".toList ++ (front ++ "}".toList ++ ("_".toList ++ x)) ++ "}$".toList
        = ("$".toList ++ front) ++ ("}_".toList ++ (x ++ "}$".toList)) := by simp
    rw [e1, replaceAll_append hf, replaceAll_self (by decide), tail]
    simp
  have nogp : ∀ w : List Char, "gp_".toList.isPrefixOf w = true ∨ w.isPrefixOf "gp_".toList = true ∨ "gp_".toList.isPrefixOf (w ++ x) = false := by
    intro w
    rcases h : "gp_".toList.isPrefixOf (w ++ x) with _ | _
    · exact Or.inr (Or.inr rfl)
    · rcases prefix_append_cases (List.isPrefixOf_iff_prefix.1 h) with h | h
      · exact Or.inl (List.isPrefixOf_iff_prefix.2 h)
      · exact Or.inr (Or.inl (List.isPrefixOf_iff_prefix.2 h))
  have isgp : ∀ w y : List Char, "gp_".toList.isPrefixOf w = true → "gp_".toList.isPrefixOf (w ++ y) = true := by
    intro w y h
    exact List.isPrefixOf_iff_prefix.2 ((List.isPrefixOf_iff_prefix.1 h).trans (List.prefix_append _ _))
  have word : ∀ w ∈ parWords, ∀ v : List Char, isInfix w.toList v = true → isInfix v x = false := by
    intro w hw v hv
    rw [← Bool.not_eq_true, isInfix_iff]
    exact fun hc => hx.2 w hw (((isInfix_iff _ _).1 hv).trans hc)
  have two : ∀ w : List Char, "gp_".toList.isPrefixOf w = false → w.isPrefixOf "gp_".toList = false → "gp_".toList.isPrefixOf (w ++ x) = false := by
    intro w h1 h2
    rcases nogp w with h | h | h
    · rw [h1] at h; cases h
    · rw [h2] at h; cases h
    · exact h
  cases q with
  | gamma => exact simple "gamma_".toList "\\gamma_{\\rm ".toList (by decide) (word "gamma_" (by decide) _ (by decide)) (two _ (by decide) (by decide))
  | jit => exact simple "jit_".toList "\\sigma_{\\rm ".toList (by decide) (word "jit_" (by decide) _ (by decide)) (two _ (by decide) (by decide))
  | gpAmp => exact gp "gp_amp".toList "\\eta_{1".toList (by decide) (by decide) (word "gp_amp" (by decide) _ (by decide)) (isgp _ _ (by decide)) (by decide)
  | gpExplength => exact gp "gp_explength".toList "\\eta_{2".toList (by decide) (by decide) (word "gp_explength" (by decide) _ (by decide)) (isgp _ _ (by decide)) (by decide)
  | gpPer => exact gp "gp_per".toList "\\eta_{3".toList (by decide) (by decide) (word "gp_per" (by decide) _ (by decide)) (isgp _ _ (by decide)) (by decide)
  | gpPerlength => exact gp "gp_perlength".toList "\\eta_{4".toList (by decide) (by decide) (word "gp_per" (by decide) _ (by decide)) (isgp _ _ (by decide)) (by decide)
  | gpLength => exact gp "gp_length".toList "\\eta_{2".toList (by decide) (by decide) (word "gp_length" (by decide) _ (by decide)) (isgp _ _ (by decide)) (by decide)
  | gpProt => exact gp "gp_Prot".toList "P_{\\rm rot".toList (by decide) (by decide) (word "gp_Prot" (by decide) _ (by decide)) (isgp _ _ (by decide)) (by decide)

/-- A key that does not end in a digit, or has `gamma` or `jit` in front of its last character, is not taken for a planet's. -/
theorem texLabel_none {letters : Option (Dict Nat String)} {stem x : List Char} (hx : x ≠ [])
    (h : isInfix "gamma".toList stem = true ∨ isInfix "jit".toList stem = true ∨ ¬ EndsInDigit x) : texLabel letters (stem ++ x) = none := by
  rw [texLabel]
  have hl : (stem ++ x).getLast? = x.getLast? := by
    rw [List.getLast?_append]
    rcases h' : x.getLast? with _ | c
    · exact absurd (List.getLast?_eq_none_iff.1 h') hx
    · rfl
  have hd : (stem ++ x).dropLast = stem ++ x.dropLast := List.dropLast_append_of_ne_nil hx
  have grow : ∀ w : List Char, isInfix w stem = true → isInfix w (stem ++ x.dropLast) = true := fun w hw =>
    (isInfix_iff _ _).2 (((isInfix_iff _ _).1 hw).trans ⟨[], x.dropLast, by simp⟩)
  rw [hl, hd]
  rcases h' : x.getLast? with _ | c
  · rfl
  · simp only
    rcases h with h | h | h
    · rw [grow _ h]; simp
    · rw [grow _ h]; simp
    · have : c.isDigit = false := by
        rw [← Bool.not_eq_true]
        exact fun hc => h ⟨c, h', hc⟩
      rw [this]; rfl

theorem opening_prefix (q r : InstPar) (h : q.opening.toList.isPrefixOf r.opening.toList = true) : q.opening.toList = r.opening.toList := by
  revert h; cases q <;> cases r <;> decide +kernel

theorem opening_inj {q r : InstPar} {x y : List Char} (h : q.opening.toList ++ x = r.opening.toList ++ y) : q.opening.toList = r.opening.toList ∧ x = y := by
  have hp : q.opening.toList <+: r.opening.toList ++ y := by rw [← h]; exact List.prefix_append _ _
  have ho : q.opening.toList = r.opening.toList := by
    rcases prefix_append_cases hp with hp | hp
    · exact opening_prefix q r (List.isPrefixOf_iff_prefix.2 hp)
    · exact (opening_prefix r q (List.isPrefixOf_iff_prefix.2 hp)).symm
  rw [ho] at h
  exact ⟨ho, List.append_cancel_left h⟩

theorem openBraces_skip (n : Nat) : ∀ (y z : List Char), ('{' ∉ y ∧ '}' ∉ y) → openBraces n (y ++ z) = openBraces n z
  | [], _, _ => rfl
  | c :: t, z, h => by
    simp only [List.mem_cons, not_or] at h
    rw [List.cons_append, openBraces_cons, if_neg (Ne.symm h.1.1), if_neg (Ne.symm h.2.1), openBraces_skip n t z ⟨h.1.2, h.2.2⟩]

theorem texLabel_digit (q : InstPar) (hq : q.isGP = true) (letters : Option (Dict Nat String)) (y : List Char) (d : Char) (hd : d.isDigit = true)
    (hg : ¬ "gamma".toList <:+: y) (hj : ¬ "jit".toList <:+: y) :
    texLabel letters (q.stem.toList ++ (y ++ [d])) = some (planetTexLabel letters (q.stem.toList ++ y) (d.toNat - 48)) := by
  have h1 : noOverlap "gamma".toList q.stem.toList = true ∧ noOverlap "jit".toList q.stem.toList = true := by
    revert hq; cases q <;> decide +kernel
  rw [texLabel, ← List.append_assoc, List.getLast?_concat]
  simp only [List.dropLast_concat]
  rw [isInfix_append h1.1, isInfix_append h1.2, infix_false hg, infix_false hj, hd]
  rfl

theorem texName_inst (q : InstPar) (hq : q.isGP = true) (y : List Char) : texName (q.stem.toList ++ y) = q.stem.toList ++ y := by
  have h : texdict.all (fun e => !q.stem.toList.isPrefixOf e.1) = true := by
    revert hq; cases q <;> decide +kernel
  have : texdict.find? (fun x => x.1 == q.stem.toList ++ y) = none := by
    rw [List.find?_eq_none]
    intro e he hb
    have h1 := List.all_eq_true.1 h e he
    have h2 : e.1 = q.stem.toList ++ y := by simpa using hb
    rw [List.isPrefixOf_iff_prefix.2 (by rw [h2]; exact List.prefix_append _ _)] at h1
    cases h1
  rw [texName, this]

end Radvel
