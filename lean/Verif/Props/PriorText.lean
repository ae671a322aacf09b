import Verif.Lemmas.PriorText

/-!
# C151: the table of priors
-/

namespace Radvel

/-- C151: a label used in the table of priors is the one the parameter has in every other table (no letters of the user's). -/
theorem C151_agrees_partial (k l : List Char) (h : HasLabel k l) (b : BasisName) : labelOf b.texts none k = .ok ("$".toList ++ l ++ "$".toList) :=
  hasLabel_labelOf h b

/-- C151: the text of a prior shows the labels of its parameters and its numbers, in their places. -/
theorem C151_text_partial (pr : PriorShow) (lab : List Char → List Char) (h : pr.Describable lab) : ∃ t, priorStr pr = .ok t ∧ InOrder (pr.pieces lab) t := by
  obtain ⟨hl, hs⟩ := h
  cases pr with
  | gaussian p mu sigma =>
    have hp := hl p (by simp [PriorShow.params])
    refine ⟨_, by rw [priorStr, tex9_eq hp]; rfl, ?_⟩
    simp only [List.append_assoc, PriorShow.pieces]
    exact ((((InOrder.nil _).piece sigma).before _ |>.piece mu).before _ |>.before _ |>.piece _).before _ |>.before _
  | hardBounds p a b =>
    have hp := hl p (by simp [PriorShow.params])
    refine ⟨_, by rw [priorStr, tex9_eq hp]; simp only [bind, Except.bind, pure, Except.pure]; rw [strip_dollars (hasLabel_dollar hp)], ?_⟩
    simp only [List.append_assoc, PriorShow.pieces]
    exact ((((InOrder.nil _).piece b).before _ |>.piece _).before _ |>.piece a).before _
  | jeffreys p a b =>
    have hp := hl p (by simp [PriorShow.params])
    refine ⟨_, by rw [priorStr, tex9_eq hp]; simp only [bind, Except.bind, pure, Except.pure]; rw [strip_dollars (hasLabel_dollar hp)], ?_⟩
    simp only [List.append_assoc, PriorShow.pieces]
    exact ((((InOrder.nil _).piece b).before _ |>.piece _).before _ |>.piece a).before _
  | modJeffreys p a b k =>
    have hp := hl p (by simp [PriorShow.params])
    refine ⟨_, by rw [priorStr, tex9_eq hp]; simp only [bind, Except.bind, pure, Except.pure]; rw [strip_dollars (hasLabel_dollar hp)], ?_⟩
    simp only [List.append_assoc, PriorShow.pieces]
    exact (((((InOrder.nil _).piece b).before _ |>.piece _).before _ |>.piece a).before _ |>.piece k).before _
  | baseline p b d => exact absurd hs (fun h => h)
  | ecc l =>
    refine ⟨_, by rw [priorStr, eccLoop_eq lab l [] hs (fun x hx => hl _ (List.mem_map.2 ⟨x, hx, rfl⟩))]; rfl, ?_⟩
    exact eccText_inOrder lab l
  | numerical ps =>
    obtain ⟨names, hn, ho⟩ := nameList_ok (ps.map lab) (by simpa using hs.1)
    have hd : texLabels (BasisName.perTcSecoswSesinwLogk.words.map PName.chars) none ps = .ok (ps.map (fun k => (k, "$".toList ++ lab k ++ "$".toList))) :=
      texLabels_fold .perTcSecoswSesinwLogk lab ps [] hl hs.2 (fun k _ hk => by cases hk)
    refine ⟨"Numerical prior on ".toList ++ names ++ ", defined using Gaussian kernel density estimation.".toList, ?_, ?_⟩
    · rw [priorStr, hd]
      simp only [bind, Except.bind, List.map_map]
      rw [List.length_map, List.map_map] at hn
      rw [show (Prod.snd ∘ fun k => (k, "$".toList ++ lab k ++ "$".toList)) = ((fun l => "$".toList ++ l ++ "$".toList) ∘ lab) from rfl, hn]
      rfl
    · exact (ho.before _).after _
  | posK => exact ⟨_, rfl, .cons "$".toList "K".toList "$ constrained to be $>0$".toList _ (.cons "$ constrained to be $".toList ">0".toList "$".toList _ (.nil _))⟩
  | secEclipse ts e =>
    refine ⟨_, rfl, ?_⟩
    have e1 : "secondary eclipse prior: $".toList ++ ts ++ " \\pm ".toList ++ e ++ "$ \\\\\\\\\n".toList
        = ("secondary eclipse prior: $".toList ++ (ts ++ (" \\pm ".toList ++ (e ++ "$ ".toList)))) ++ "\\\\\\\\\n".toList := by
      simp only [List.append_assoc]; rfl
    rw [e1, dropEnd_self 5 _ _ (by decide)]
    exact ((((InOrder.nil _).piece e).before _).piece ts).before _
  | user r =>
    have := (InOrder.nil []).piece r
    rw [List.append_nil] at this
    exact ⟨r, rfl, this⟩

/-- The parameters of an example: two planets and an instrument. -/
def labEx (k : List Char) : List Char :=
  if k = "per1".toList then "P_{b}".toList else if k = "e2".toList then "e_{c}".toList else "\\gamma_{\\rm k}".toList

example : ∃ t, priorStr (.numerical ["per1".toList, "e2".toList, "gamma_k".toList]) = .ok t ∧ InOrder ["P_{b}".toList, "e_{c}".toList, "\\gamma_{\\rm k}".toList] t :=
  C151_text_partial (.numerical ["per1".toList, "e2".toList, "gamma_k".toList]) labEx
    ⟨by
      intro k hk
      simp only [PriorShow.params, List.mem_cons, List.not_mem_nil, or_false] at hk
      rcases hk with rfl | rfl | rfl
      · exact .planet .per 1 (by omega) (by omega)
      · exact .planet .e 2 (by omega) (by omega)
      · exact .instrument .gamma "k".toList ⟨by decide, by intro w hw; rw [← isInfix_iff]; revert w; decide⟩ (fun h => by cases h) (by decide),
     by decide, by decide⟩

/-- C151: the table has one row for every prior, in the order of the priors; the row contains the prior's text and ends the line. -/
theorem C151_table_partial (ps : List PriorShow) (lab : List Char → List Char) (h : ∀ pr ∈ ps, pr.Describable lab) :
    ∃ rows, priorRows ps = .ok rows ∧ List.Forall₂ (fun pr row => InOrder (pr.pieces lab) row ∧ "\\\\".toList <:+ row) ps rows := by
  induction ps with
  | nil => exact ⟨[], rfl, .nil⟩
  | cons p ps ih =>
    obtain ⟨rows, hr, hf⟩ := ih (fun q hq => h q (by simp [hq]))
    obtain ⟨t, ht, ho⟩ := C151_text_partial p lab (h p (by simp))
    refine ⟨(if "\\\\".toList.isSuffixOf t then t else t ++ "\\\\".toList) :: rows, ?_, ?_⟩
    · rw [priorRows] at hr
      have h1 : priorRow p = .ok (if "\\\\".toList.isSuffixOf t then t else t ++ "\\\\".toList) := by
        rw [priorRow, ht]; rfl
      rw [priorRows, List.mapM_cons, h1, hr]
      rfl
    · refine .cons ?_ hf
      split
      · rename_i hs
        exact ⟨ho, List.isSuffixOf_iff_suffix.1 hs⟩
      · exact ⟨ho.after _, List.suffix_append _ _⟩

example : ∃ rows, priorRows [.gaussian "per1".toList "1".toList "2".toList, .ecc [(1, "0.9".toList), (2, "0.8".toList)]] = .ok rows ∧ rows.length = 2 := by
  obtain ⟨rows, h, hf⟩ := C151_table_partial [.gaussian "per1".toList "1".toList "2".toList, .ecc [(1, "0.9".toList), (2, "0.8".toList)]]
    (fun k => if k = "per1".toList then "P_{b}".toList else if k = "e1".toList then "e_{b}".toList else "e_{c}".toList) (by
    intro pr hpr
    simp only [List.mem_cons, List.not_mem_nil, or_false] at hpr
    rcases hpr with rfl | rfl
    · refine ⟨?_, trivial⟩
      intro k hk
      simp only [PriorShow.params, List.mem_cons, List.not_mem_nil, or_false] at hk
      subst hk
      exact .planet .per 1 (by omega) (by omega)
    · refine ⟨?_, by decide⟩
      intro k hk
      simp only [PriorShow.params, List.map_cons, List.map_nil, List.mem_cons, List.not_mem_nil, or_false] at hk
      rcases hk with rfl | rfl
      · exact .planet .e 1 (by omega) (by omega)
      · exact .planet .e 2 (by omega) (by omega))
  exact ⟨rows, h, hf.length_eq.symm⟩

/-! ## Where C151 fails -/

/-- C151 is false with letters of the user's: the table of priors uses the default letters (`Parameters(9)`), all others the user's. -/
theorem C151_letters_violated (p : PName) (n : Nat) (h1 : 1 ≤ n) (h9 : n ≤ 9) (b : BasisName) (l : Dict Nat String) (s : String) (hl : l.get? n = some s) (hs : s.toList ≠ [planetLetter n])
    (mu sigma : List Char) :
    ∃ default own, labelOf b.texts (some l) (Key.orb p n).render = .ok own ∧ default ≠ own ∧
      priorStr (.gaussian (Key.orb p n).render mu sigma) = .ok ("Gaussian prior on ".toList ++ default ++ ": $".toList ++ mu ++ " \\pm ".toList ++ sigma ++ "$ \\\\".toList) := by
  have hne : (Key.orb p n).render ≠ [] := by cases p <;> exact List.cons_ne_nil _ _
  refine ⟨"$".toList ++ p.symbol.toList ++ "_{".toList ++ [planetLetter n] ++ "}$".toList, "$".toList ++ p.symbol.toList ++ "_{".toList ++ s.toList ++ "}$".toList, ?_, ?_, ?_⟩
  · rw [labelOf, if_neg hne, C09_custom_letters_partial p n h1 h9 l s hl]
  · intro h
    exact hs (List.append_cancel_left (List.append_cancel_right h)).symm
  · have ht := tex9_eq (.planet p n h1 h9)
    rw [priorStr, ht]
    simp only [bind, Except.bind, pure, Except.pure, List.append_assoc]
    rfl

example : ∃ t, priorStr (.gaussian "per1".toList "1".toList "2".toList) = .ok t ∧ labelOf BasisName.perTpEWK.texts (some [(1, "d")]) "per1".toList = .ok "$P_{d}$".toList ∧
    ¬ "P_{d}".toList <:+: t ∧ "P_{b}".toList <:+: t := by
  refine ⟨"Gaussian prior on $P_{b}$: $1 \\pm 2$ \\\\".toList, by decide +kernel, by decide +kernel, ?_, ?_⟩ <;> rw [← isInfix_iff] <;> decide +kernel

theorem mapM_error {α β : Type} {f : α → Except PyErr β} : ∀ {l : List α} {x : α}, x ∈ l → (∀ y, f x ≠ .ok y) → ∀ ys, l.mapM f ≠ .ok ys
  | a :: l, x, hx, hf, ys, h => by
    rw [List.mapM_cons] at h
    rcases h1 : f a with e | y
    · rw [h1] at h; cases h
    · rw [h1] at h
      simp only [bind, Except.bind] at h
      rcases h2 : l.mapM f with e | z
      · rw [h2] at h; cases h
      · rcases List.mem_cons.1 hx with rfl | hx
        · exact hf y h1
        · exact mapM_error hx hf z h2

theorem priorRows_error {ps : List PriorShow} {pr : PriorShow} (h : pr ∈ ps) (he : ∀ t, priorStr pr ≠ .ok t) (rows : List (List Char)) : priorRows ps ≠ .ok rows := by
  apply mapM_error h
  intro y hy
  rw [priorRow] at hy
  rcases h1 : priorStr pr with e | t
  · rw [h1] at hy; cases hy
  · exact he t h1

theorem foldlM_error {α σ : Type} {f : σ → α → Except PyErr σ} : ∀ {l : List α} {x : α}, x ∈ l → (∀ s y, f s x ≠ .ok y) → ∀ s s', l.foldlM f s ≠ .ok s'
  | a :: l, x, hx, hf, s, s', h => by
    rw [List.foldlM_cons] at h
    rcases h1 : f s a with e | y
    · rw [h1] at h; cases h
    · rw [h1] at h
      rcases List.mem_cons.1 hx with rfl | hx
      · exact hf s y h1
      · exact foldlM_error hx hf y s' h

/-- C151 is false from the tenth planet on: an eccentricity limit for such a planet, and there is no table of priors (and so no report). -/
theorem C151_ten_violated (ps : List PriorShow) (l : List (Nat × List Char)) (hl : PriorShow.ecc l ∈ ps) (x : Nat × List Char) (hx : x ∈ l) (h10 : 10 ≤ x.1) (rows : List (List Char)) :
    priorRows ps ≠ .ok rows := by
  apply priorRows_error hl
  intro t ht
  rw [priorStr] at ht
  rcases h1 : l.foldlM eccLine [] with e | m
  · rw [h1] at ht; cases ht
  · exact foldlM_error hx (fun s y h => by rw [eccLine, if_neg (by omega)] at h; cases h) _ _ h1

example (rows : List (List Char)) : priorRows [.posK, .ecc ((List.range 10).map (fun i => (i + 1, "0.99".toList)))] ≠ .ok rows :=
  C151_ten_violated _ _ (List.mem_cons_of_mem _ (List.mem_singleton.2 rfl)) (10, "0.99".toList) (by decide) (by omega) rows

theorem labelTurn_keys {pp : List (List Char)} {letters : Option (Dict Nat String)} : ∀ {ks : List (List Char)} {d d' : Dict (List Char) (List Char)},
    ks.foldlM (labelTurn pp letters) d = Except.ok d' → d.keys.Nodup → d'.keys.Nodup ∧ ∀ k ∈ d'.keys, k ∈ d.keys ∨ k ∈ ks
  | [], d, d', h, hn => by
    have : d = d' := Except.ok.inj h
    subst this
    exact ⟨hn, fun k hk => Or.inl hk⟩
  | k :: ks, d, d', h, hn => by
    rw [List.foldlM_cons] at h
    rcases h1 : labelTurn pp letters d k with e | m
    · rw [h1] at h; cases h
    · rw [h1] at h
      rw [labelTurn] at h1
      rcases h2 : labelOf pp letters k with e | l
      · rw [h2] at h1; cases h1
      · rw [h2] at h1
        have hm : Dict.set d k l = m := Except.ok.inj h1
        obtain ⟨a, b⟩ := labelTurn_keys (d := m) h (by rw [← hm]; exact Dict.nodup_keys_set _ _ _ hn)
        refine ⟨a, ?_⟩
        intro x hx
        rcases b x hx with hb | hb
        · rw [← hm, Dict.mem_keys_set] at hb
          rcases hb with hb | hb
          · exact Or.inr (by simp [hb])
          · exact Or.inl hb
        · exact Or.inr (by simp [hb])

/-- C151 is false for a numerical prior on an empty list of parameters, or on a list that names a parameter twice: there is no table of priors. -/
theorem C151_numerical_violated (ps : List PriorShow) (ks : List (List Char)) (hk : PriorShow.numerical ks ∈ ps) (h : ks = [] ∨ ¬ ks.Nodup) (rows : List (List Char)) :
    priorRows ps ≠ .ok rows := by
  apply priorRows_error hk
  intro t ht
  rw [priorStr] at ht
  rcases h1 : texLabels (BasisName.perTcSecoswSesinwLogk.words.map PName.chars) none ks with e | d
  · rw [h1] at ht; cases ht
  · rw [h1] at ht
    simp only [bind, Except.bind] at ht
    rcases h2 : nameList ks.length (d.map Prod.snd) with e | names
    · rw [h2] at ht; cases ht
    · rcases h with rfl | hnd
      · have : d = [] := (Except.ok.inj h1).symm
        subst this
        cases h2
      · obtain ⟨hn, hsub⟩ := labelTurn_keys h1 List.nodup_nil
        have hlt : d.length < ks.length := by
          have hle : d.keys ⊆ ks := fun k hk => (hsub k hk).resolve_left (fun h => by cases h)
          have h3 : d.keys.length ≤ ks.dedup.length := (hn.subperm (fun k hk => List.mem_dedup.2 (hle hk))).length_le
          have h4 : ks.dedup.length < ks.length := by
            rcases Nat.lt_or_ge ks.dedup.length ks.length with h | h
            · exact h
            · exact absurd (List.dedup_eq_self.1 ((List.dedup_sublist ks).eq_of_length (le_antisymm (List.dedup_sublist ks).length_le h))) hnd
          have h5 : d.keys.length = d.length := by simp [Dict.keys]
          omega
        match ks, d, hlt with
        | [a], d, hlt => exact hnd (List.nodup_singleton a)
        | [a, b], [], _ => cases h2
        | [a, b], [x], _ => cases h2
        | a :: b :: c :: ks, d, hlt =>
          simp only [List.length_cons] at hlt
          have h6 : nameList (a :: b :: c :: ks).length (d.map Prod.snd) = commaList (d.map Prod.snd) (ks.length + 2) := by
            rw [nameList.eq_def, if_neg (by simp), if_neg (by simp)]
            rfl
          rw [h6, commaList] at h2
          rcases h7 : (List.range (ks.length + 2)).mapM (commaItem (d.map Prod.snd)) with e | l
          · rw [h7] at h2; cases h2
          · rw [h7] at h2
            have h8 : lastItem (d.map Prod.snd) (ks.length + 2) = .error .indexError := by
              rw [lastItem, if_neg (by omega), List.getElem?_eq_none (by simp; omega)]
            simp only [bind, Except.bind, h8] at h2
            cases h2

example (rows : List (List Char)) : priorRows [.numerical ["per1".toList, "tc1".toList, "per1".toList]] ≠ .ok rows :=
  C151_numerical_violated _ _ (by simp; exact rfl) (Or.inr (by decide)) rows

/-- C151 is false for `InformativeBaselinePrior`: it has no `__str__`, its row shows the name of the parameter in the program and no label. -/
theorem C151_baseline_violated (p : PName) (n : Nat) (b d : List Char) (hb : '{' ∉ b) (hd : '{' ∉ d) :
    ∃ row, priorRow (.baseline (Key.orb p n).render b d) = .ok row ∧ ¬ (p.symbol.toList ++ "_{".toList ++ [planetLetter n] ++ "}".toList) <:+: row := by
  have hk : '{' ∉ (Key.orb p n).render := by
    have hdig : '{' ∉ Nat.toDigits 10 n := by
      intro h
      have := Nat.isDigit_of_mem_toDigits (by omega) (by omega) h
      revert this; decide
    have hp : '{' ∉ p.chars := by cases p <;> decide
    simp only [Key.render, List.mem_append, not_or]
    exact ⟨hp, hdig⟩
  have ht : '{' ∉ "Informative baseline prior on ".toList ++ (Key.orb p n).render ++ ", baseline=".toList ++ b ++ ", duration=".toList ++ d := by
    simp only [List.mem_append, not_or]
    exact ⟨⟨⟨⟨⟨by decide, hk⟩, by decide⟩, hb⟩, by decide⟩, hd⟩
  refine ⟨_, rfl, ?_⟩
  intro hc
  have h1 : '{' ∈ p.symbol.toList ++ "_{".toList ++ [planetLetter n] ++ "}".toList := by simp
  have h2 := hc.subset h1
  split at h2
  · exact ht h2
  · rcases List.mem_append.1 h2 with h2 | h2
    · exact ht h2
    · revert h2; decide

example : ∃ row, priorRow (.baseline "per1".toList "365.0".toList "0.0".toList) = .ok row ∧ ¬ "P_{b}".toList <:+: row :=
  C151_baseline_violated .per 1 "365.0".toList "0.0".toList (by decide) (by decide)

/-- C151 is false for the lines of the document: the program ends every row and the template ends it again, so that an empty row follows every prior. -/
theorem C151_line_violated (ps : List PriorShow) (rows : List (List Char)) (h : priorRows ps = .ok rows) (row : List Char) (hr : row ∈ rows) :
    ∃ body, priorLine row = body ++ "\\\\ \\\\".toList := by
  have : ∀ (ps : List PriorShow) (rows : List (List Char)), ps.mapM priorRow = .ok rows → ∀ row ∈ rows, "\\\\".toList <:+ row := by
    intro ps
    induction ps with
    | nil => intro rows h row hr; cases h; cases hr
    | cons p ps ih =>
      intro rows h row hr
      rw [List.mapM_cons] at h
      rcases h1 : priorRow p with e | y
      · rw [h1] at h; cases h
      · rw [h1] at h
        rcases h2 : ps.mapM priorRow with e | z
        · rw [h2] at h; cases h
        · rw [h2] at h
          have : y :: z = rows := Except.ok.inj h
          subst this
          rcases List.mem_cons.1 hr with rfl | hr
          · rw [priorRow] at h1
            rcases h3 : priorStr p with e | t
            · rw [h3] at h1; cases h1
            · rw [h3] at h1
              have h4 : (if "\\\\".toList.isSuffixOf t then t else t ++ "\\\\".toList) = row := Except.ok.inj h1
              split at h4
              · rename_i hs
                rw [← h4]; exact List.isSuffixOf_iff_suffix.1 hs
              · rw [← h4]; exact List.suffix_append _ _
          · exact ih z h2 row hr
  obtain ⟨body, hb⟩ := this ps rows h row hr
  refine ⟨"  ".toList ++ body, ?_⟩
  rw [priorLine, ← hb]
  simp only [List.append_assoc]
  rfl

example : ∃ rows, priorRows [.posK] = .ok rows ∧ rows = ["$K$ constrained to be $>0$\\\\".toList] := ⟨_, by decide +kernel, rfl⟩

end Radvel
