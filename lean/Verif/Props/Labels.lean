import Verif.Lemmas.Labels

/-!
# C150: labels of instrument parameters

`planet_parameters` are the words of the basis (/repo/radvel/model.py 106).
-/

namespace Radvel

/-- C150, provable part: whatever the planets' letters and the basis, the label of an instrument's parameter is its symbol with the name of the instrument,
provided the name contains no name of a parameter and (for hyperparameters) does not end in a digit. -/
theorem C150_label_partial (b : BasisName) (letters : Option (Dict Nat String)) (q : InstPar) (x : List Char) (hx : PlainName x)
    (hd : q.isGP = true → ¬ EndsInDigit x) :
    labelOf b.texts letters (q.stem.toList ++ x) = .ok ("$".toList ++ q.opening.toList ++ x ++ "}$".toList) := by
  rw [← entryLabel_plain q hx]
  have hw : applies (q.stem.toList ++ x) q.entry = true := by
    have : isInfix q.entry.1 q.stem.toList = true ∧ q.entry.1.length > 1 := by cases q <;> decide
    rw [applies, (isInfix_iff _ _).2 (((isInfix_iff _ _).1 this.1).trans ⟨[], x, by simp⟩), decide_eq_true this.2]
    rfl
  refine labelOf_entry q.index ?_ (texLabel_none hx.1 ?_) (find_none hx.1 ?_) (dropLast_not_word hx.1 b ?_) ?_ hw (not_applies hx ?_)
  · intro hn
    exact hx.1 (List.append_eq_nil_iff.1 hn).2
  · cases q
    · exact Or.inl (by decide)
    · exact Or.inr (Or.inl (by decide))
    all_goals exact Or.inr (Or.inr (hd rfl))
  all_goals cases q <;> decide +kernel

theorem plain_hires : PlainName "hires_rj".toList := ⟨by decide, by intro w hw; rw [← isInfix_iff]; revert w; decide⟩

example : labelOf BasisName.perTcSecoswSesinwK.texts none "gp_perlength_hires_rj".toList = .ok "$\\eta_{4, \\rm hires_rj}$".toList :=
  C150_label_partial _ none .gpPerlength "hires_rj".toList plain_hires (fun _ => by rintro ⟨c, hc, h⟩; cases hc; revert h; decide)

/-- C150: braces of such a label match if those of the instrument's name do. -/
theorem C150_balanced_partial (b : BasisName) (letters : Option (Dict Nat String)) (q : InstPar) (x : List Char) (hx : PlainName x)
    (hd : q.isGP = true → ¬ EndsInDigit x) (hn : '{' ∉ x ∧ '}' ∉ x) :
    ∃ l, labelOf b.texts letters (q.stem.toList ++ x) = .ok l ∧ Balanced l ∧ x <:+: l := by
  refine ⟨_, C150_label_partial b letters q x hx hd, ?_, ⟨"$".toList ++ q.opening.toList, "}$".toList, rfl⟩⟩
  have front : ∀ y : List Char, openBraces 0 ("$".toList ++ q.opening.toList ++ y) = openBraces 1 y := by
    intro y; cases q <;> rfl
  rw [Balanced, List.append_assoc, front, openBraces_skip 1 x _ hn]
  rfl

example : ∃ l, labelOf BasisName.perTpEWK.texts none "jit_k".toList = .ok l ∧ Balanced l ∧ "k".toList <:+: l :=
  C150_balanced_partial _ none .jit "k".toList ⟨by decide, by intro w hw; rw [← isInfix_iff]; revert w; decide⟩ (fun h => by cases h) (by decide)

/-- C150: two such parameters share a label only if they belong to the same instrument and are the same parameter, or the scale lengths of two kernels. -/
theorem C150_distinct_partial (b : BasisName) (letters : Option (Dict Nat String)) (q r : InstPar) (x y : List Char) (hx : PlainName x) (hy : PlainName y)
    (hdx : q.isGP = true → ¬ EndsInDigit x) (hdy : r.isGP = true → ¬ EndsInDigit y)
    (h : labelOf b.texts letters (q.stem.toList ++ x) = labelOf b.texts letters (r.stem.toList ++ y)) :
    x = y ∧ (q = r ∨ (q = .gpExplength ∧ r = .gpLength) ∨ (q = .gpLength ∧ r = .gpExplength)) := by
  rw [C150_label_partial b letters q x hx hdx, C150_label_partial b letters r y hy hdy] at h
  have h := List.append_cancel_right (Except.ok.inj h)
  rw [List.append_assoc, List.append_assoc] at h
  have h := List.append_cancel_left h
  obtain ⟨ho, hxy⟩ := opening_inj h
  refine ⟨hxy, ?_⟩
  revert ho
  cases q <;> cases r <;> decide +kernel

example : labelOf BasisName.perTpEWK.texts none "gamma_k".toList ≠ labelOf BasisName.perTpEWK.texts none "gamma_j".toList := by
  intro h
  have := (C150_distinct_partial .perTpEWK none .gamma .gamma "k".toList "j".toList ⟨by decide, by intro w hw; rw [← isInfix_iff]; revert w; decide⟩
    ⟨by decide, by intro w hw; rw [← isInfix_iff]; revert w; decide⟩ (fun h => by cases h) (fun h => by cases h) h).1
  revert this; decide

/-- C150: the trend, the curvature and hyperparameters without an instrument have their symbols. -/
theorem C150_shared (b : BasisName) (letters : Option (Dict Nat String)) :
    labelOf b.texts letters "dvdt".toList = .ok "$\\dot{\\gamma}$".toList ∧ labelOf b.texts letters "curv".toList = .ok "$\\ddot{\\gamma}$".toList ∧
    labelOf b.texts letters "gp_amp".toList = .ok "$\\eta_{1}$".toList ∧ labelOf b.texts letters "gp_explength".toList = .ok "$\\eta_{2}$".toList ∧
    labelOf b.texts letters "gp_per".toList = .ok "$\\eta_{3}$".toList ∧ labelOf b.texts letters "gp_perlength".toList = .ok "$\\eta_{4}$".toList ∧
    labelOf b.texts letters "gp_length".toList = .ok "$\\eta_{2}$".toList ∧ labelOf b.texts letters "gp_B".toList = .ok "$B$".toList ∧
    labelOf b.texts letters "gp_C".toList = .ok "$C$".toList ∧ labelOf b.texts letters "gp_L".toList = .ok "$L$".toList ∧
    labelOf b.texts letters "gp_Prot".toList = .ok "$P_{\\rm rot}$".toList := by
  refine ⟨rfl, rfl, rfl, rfl, rfl, rfl, rfl, rfl, rfl, rfl, rfl⟩

/-! ## Where C150 fails -/

/-- C150 is false for the hyperparameters `B`, `C` and `L` of the celerite kernel: whatever the instrument, the label closes a brace that was never opened. -/
theorem C150_celerite_violated (b : BasisName) (letters : Option (Dict Nat String)) (h : Char) (hh : h ∈ ['B', 'C', 'L']) (x : List Char) (hx : PlainName x)
    (hd : ¬ EndsInDigit x) (hn : '{' ∉ x ∧ '}' ∉ x) :
    labelOf b.texts letters ("gp_".toList ++ [h] ++ "_".toList ++ x) = .ok ("$".toList ++ [h] ++ "_".toList ++ x ++ "}$".toList) ∧
      ¬ Balanced ("$".toList ++ [h] ++ "_".toList ++ x ++ "}$".toList) := by
  have hb : isInfix "}_".toList x = false := infix_false (hx.2 "}_" (by decide))
  have tail := replaceAll_none (w := "}_".toList) ", \\rm ".toList (braceWord_end hb)
  have key : ∀ (i : Nat) (c : Char), c ∈ ['B', 'C', 'L'] → texdict[i]? = some ("gp_".toList ++ [c], [c]) →
      (texdict.drop (i + 1)).all (fun e => noOverlap e.1 ("gp_".toList ++ [c] ++ "_".toList) && parWords.any (fun w => isInfix w.toList e.1)) = true →
      labelOf b.texts letters ("gp_".toList ++ [c] ++ "_".toList ++ x) = .ok ("$".toList ++ [c] ++ "_".toList ++ x ++ "}$".toList) := by
    intro i c hc hi hall
    have facts : texdict.all (fun e => !("gp_".toList ++ [c] ++ "_".toList).isPrefixOf e.1 || e.1 == "gp_".toList ++ [c] ++ "_".toList) = true ∧
        ([.per, .logper, .tc, .tp, .secosw, .ecosw, .e, .se, .sesinw, .esinw, .w, .k, .logk] : List PName).all (fun p => !("gp_".toList ++ [c] ++ "_".toList).isPrefixOf p.chars) = true ∧
        noOverlap ("gp_".toList ++ [c]) "_".toList = true ∧ noOverlap "}_".toList ("$".toList ++ [c] ++ "_".toList) = true ∧
        isInfix ("gp_".toList ++ [c]) ("gp_".toList ++ [c] ++ "_".toList) = true ∧ parWords.any (fun w => isInfix w.toList ("gp_".toList ++ [c])) = true := by
      clear hi hall; revert c; decide +kernel
    obtain ⟨f1, f2, f3, f4, f5, f6⟩ := facts
    have hw : isInfix ("gp_".toList ++ [c]) x = false := by
      obtain ⟨w, hw, hwi⟩ := List.any_eq_true.1 f6
      rw [← Bool.not_eq_true, isInfix_iff]
      exact fun hcc => hx.2 w hw (((isInfix_iff _ _).1 hwi).trans hcc)
    rw [labelOf_entry i (by simp) (texLabel_none hx.1 (Or.inr (Or.inr hd))) (find_none hx.1 f1) (dropLast_not_word hx.1 b f2) hi ?_ (not_applies hx hall)]
    · rw [entryLabel]
      simp only
      rw [List.append_assoc _ "_".toList x, replaceAll_self (by simp), replaceAll_append f3, replaceAll_none _ hw]
      rw [show "gp_".toList.isPrefixOf ("gp_".toList ++ [c] ++ ("_".toList ++ x)) = true from
        List.isPrefixOf_iff_prefix.2 (by rw [List.append_assoc]; exact List.prefix_append _ _), if_pos rfl]
      have e1 : "$".toList ++ ([c] ++ ("_".toList ++ x)) ++ "}$".toList = ("$".toList ++ [c] ++ "_".toList) ++ (x ++ "}$".toList) := by simp
      rw [e1, replaceAll_append f4, tail]
      simp
    · rw [applies, (isInfix_iff _ _).2 (((isInfix_iff _ _).1 f5).trans ⟨[], x, by simp⟩)]
      simp
  constructor
  · simp only [List.mem_cons, List.not_mem_nil, or_false] at hh
    rcases hh with rfl | rfl | rfl
    · exact key 22 'B' (by decide) rfl (by decide +kernel)
    · exact key 23 'C' (by decide) rfl (by decide +kernel)
    · exact key 24 'L' (by decide) rfl (by decide +kernel)
  · have front : openBraces 0 ("$".toList ++ [h] ++ "_".toList ++ x ++ "}$".toList) = openBraces 0 (x ++ "}$".toList) := by
      simp only [List.mem_cons, List.not_mem_nil, or_false] at hh
      rcases hh with rfl | rfl | rfl <;> rfl
    rw [Balanced, front, openBraces_skip 0 x _ hn]
    decide

example : labelOf BasisName.perTpEWK.texts none "gp_B_hires_rj".toList = .ok "$B_hires_rj}$".toList :=
  (C150_celerite_violated .perTpEWK none 'B' (by decide) "hires_rj".toList plain_hires (by rintro ⟨c, hc, h⟩; cases hc; revert h; decide) (by decide)).1

/-- C150 is false for instruments whose name ends in a digit (`harps2`): their hyperparameters are taken for a planet's. Without letters of its own the label is the bare name
with the letter of that planet ... -/
theorem C150_digit_violated (b : BasisName) (q : InstPar) (hq : q.isGP = true) (y : List Char) (d : Char) (hd : d.isDigit = true)
    (hg : ¬ "gamma".toList <:+: y) (hj : ¬ "jit".toList <:+: y) :
    labelOf b.texts none (q.stem.toList ++ (y ++ [d])) = .ok ("$".toList ++ q.stem.toList ++ y ++ "_{".toList ++ [Char.ofNat (d.toNat - 48 + 97)] ++ "}$".toList) := by
  rw [labelOf, if_neg (by simp), texLabel_digit q hq none y d hd hg hj]
  simp only [planetTexLabel]
  rw [texName_inst q hq y]
  simp

/-- ... and with letters for the planets there is no label at all unless a planet has that number. -/
theorem C150_letters_violated (b : BasisName) (q : InstPar) (hq : q.isGP = true) (letters : Dict Nat String) (y : List Char) (d : Char) (hd : d.isDigit = true)
    (hg : ¬ "gamma".toList <:+: y) (hj : ¬ "jit".toList <:+: y) (hl : letters.get? (d.toNat - 48) = none) :
    labelOf b.texts (some letters) (q.stem.toList ++ (y ++ [d])) = .error .keyError := by
  rw [labelOf, if_neg (by simp), texLabel_digit q hq _ y d hd hg hj]
  simp only [planetTexLabel, hl]

example : labelOf BasisName.perTpEWK.texts none "gp_amp_harps2".toList = .ok "$gp_amp_harps_{c}$".toList ∧
    labelOf BasisName.perTpEWK.texts (some [(1, "b")]) "gp_amp_harps2".toList = .error .keyError :=
  ⟨C150_digit_violated .perTpEWK .gpAmp rfl "harps".toList '2' rfl (by rw [← isInfix_iff]; decide) (by rw [← isInfix_iff]; decide),
   C150_letters_violated .perTpEWK .gpAmp rfl [(1, "b")] "harps".toList '2' rfl (by rw [← isInfix_iff]; decide) (by rw [← isInfix_iff]; decide) rfl⟩

/-- C150 is false for `logjit`: `texdict` has a symbol for it, but the entry for `jit_` overwrites it, whatever the instrument. -/
theorem C150_logjit_violated (b : BasisName) (letters : Option (Dict Nat String)) (x : List Char) (hx : PlainName x) :
    labelOf b.texts letters ("logjit_".toList ++ x) = .ok ("$log\\sigma_{\\rm ".toList ++ x ++ "}$".toList) ∧
      labelOf b.texts letters ("logjit_".toList ++ x) ≠ .ok ("$\\ln{\\sigma_{\\rm jit}}_{\\rm ".toList ++ x ++ "}$".toList) := by
  have hj : isInfix "jit_".toList x = false := infix_false (hx.2 "jit_" (by decide))
  have main : labelOf b.texts letters ("logjit_".toList ++ x) = .ok ("$log\\sigma_{\\rm ".toList ++ x ++ "}$".toList) := by
    rw [labelOf_entry 14 (e := ("jit_".toList, "\\sigma_{\\rm ".toList)) (by simp) (texLabel_none hx.1 (Or.inr (Or.inl (by decide)))) (find_none hx.1 (by decide +kernel))
      (dropLast_not_word hx.1 b (by decide +kernel)) rfl ?_ (not_applies hx (by decide +kernel))]
    · have e1 : replaceAll "jit_".toList "\\sigma_{\\rm ".toList ("logjit_".toList ++ x) = "log".toList ++ ("\\sigma_{\\rm ".toList ++ x) := by
        have := replaceAll_append (w := "jit_".toList) (a := "log".toList) (by decide) "\\sigma_{\\rm ".toList ("jit_".toList ++ x)
        rw [replaceAll_self (by decide), replaceAll_none _ hj] at this
        exact this
      rw [entryLabel, e1]
      rfl
    · have e2 : isInfix "jit_".toList ("logjit_".toList ++ x) = true := (isInfix_iff _ _).2 ⟨"log".toList, x, rfl⟩
      rw [applies, e2]
      rfl
  refine ⟨main, ?_⟩
  rw [main]
  intro h
  have h : 'l' = '\\' := (List.cons.inj (List.cons.inj (Except.ok.inj h)).2).1
  revert h; decide

example : labelOf BasisName.perTpEWK.texts none "logjit_hires_rj".toList = .ok "$log\\sigma_{\\rm hires_rj}$".toList :=
  (C150_logjit_violated .perTpEWK none "hires_rj".toList plain_hires).1

end Radvel
