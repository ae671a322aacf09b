import Verif.Lemmas.StatusStep

/-! # C79 for values with several lines -/

namespace Radvel

/-- A further line of a value: not blank, without spaces at the ends, not like a comment. -/
structure PlainLine (l : Text) : Prop where
  value : PlainValue l
  nonempty : l ≠ []
  start : l.head? ≠ some '#' ∧ l.head? ≠ some ';'

theorem indentLines_join (v : Text) (ls : List Text) (hv : '\n' ∉ v) (hl : ∀ l ∈ ls, '\n' ∉ l) : indentLines (joinLines (v :: ls)) ++ ['\n'] = v ++ '\n' :: ls.flatMap fun l => '\t' :: l ++ ['\n'] := by
  induction ls generalizing v with
  | nil => rw [joinLines, indentLines_plain hv]; simp
  | cons l ls ih =>
    have h1 := ih l (hl l (by simp)) fun l' h => hl l' (by simp [h])
    have h2 : indentLines (joinLines (v :: l :: ls)) = v ++ '\n' :: '\t' :: indentLines (joinLines (l :: ls)) := by
      rw [joinLines]
      · unfold indentLines
        rw [List.flatMap_append, List.flatMap_cons, if_pos rfl]
        have : v.flatMap (fun c => if c = '\n' then ['\n', '\t'] else [c]) = v := indentLines_plain hv
        rw [this]
        rfl
      · simp
    rw [h2, List.flatMap_cons, List.append_assoc, List.cons_append, List.cons_append, h1]
    simp

theorem fileLines_more (ls : List Text) (hl : ∀ l ∈ ls, '\n' ∉ l) (t : Text) : fileLines ((ls.flatMap fun l => '\t' :: l ++ ['\n']) ++ t) = (ls.map fun l => '\t' :: l) ++ fileLines t := by
  induction ls with
  | nil => rfl
  | cons l ls ih =>
    rw [List.flatMap_cons, List.map_cons]
    rw [show '\t' :: l ++ ['\n'] ++ (ls.flatMap fun l => '\t' :: l ++ ['\n']) ++ t = ('\t' :: l) ++ '\n' :: ((ls.flatMap fun l => '\t' :: l ++ ['\n']) ++ t) by simp]
    rw [fileLines_line _ _ (by simp [hl l (by simp)]), ih fun l' h => hl l' (by simp [h])]
    rfl

theorem readLine_more (s k : Text) (ls0 : List Text) (l : Text) (hl : PlainLine l) :
    readLine { sections := [(s, [(k, ls0)])], cur := some s, opt := some k, indent := 0 } ('\t' :: l) = .ok { sections := [(s, [(k, ls0 ++ [l])])], cur := some s, opt := some k, indent := 0 } := by
  have hs : strip ('\t' :: l) = l := by
    unfold strip
    rw [lstrip_cons_space _ _ (by decide)]
    exact hl.value.stripped
  have hi : 0 < indentOf ('\t' :: l) := by
    unfold indentOf
    rw [List.takeWhile_cons_of_pos (by decide)]
    simp
  unfold readLine
  rw [hs]
  have h1 : ¬ (l.head? = some '#' ∨ l.head? = some ';') := by
    rintro (h | h)
    · exact hl.start.1 h
    · exact hl.start.2 h
  simp only [if_neg h1, if_neg hl.nonempty, if_pos hi]
  simp [appendLine, Dict.get?, Dict.set]

theorem readLines_more (s k : Text) (ls : List Text) (hl : ∀ l ∈ ls, PlainLine l) (ls0 : List Text) :
    (ls.map fun l => '\t' :: l).foldlM readLine { sections := [(s, [(k, ls0)])], cur := some s, opt := some k, indent := 0 } =
      .ok { sections := [(s, [(k, ls0 ++ ls)])], cur := some s, opt := some k, indent := 0 } := by
  induction ls generalizing ls0 with
  | nil => simp; rfl
  | cons l ls ih =>
    rw [List.map_cons, List.foldlM_cons, readLine_more s k ls0 l (hl l (by simp))]
    have := ih (fun l' h => hl l' (by simp [h])) (ls0 ++ [l])
    rw [List.append_assoc] at this
    exact this

theorem rstrip_join (v : Text) (ls : List Text) (hv : PlainValue v) (hl : ∀ l ∈ ls, PlainLine l) : rstrip (joinLines (v :: ls)) = joinLines (v :: ls) := by
  induction ls generalizing v with
  | nil => exact stripped_rstrip hv.stripped
  | cons l ls ih =>
    have hne : joinLines (l :: ls) ≠ [] := by
      have := (hl l (by simp)).nonempty
      cases ls with
      | nil => exact this
      | cons => rw [joinLines] <;> simp
    have h := ih l (hl l (by simp)).value fun l' h => hl l' (by simp [h])
    rw [show joinLines (v :: l :: ls) = v ++ '\n' :: joinLines (l :: ls) from rfl]
    obtain ⟨u, c, hu⟩ := (List.eq_nil_or_concat (joinLines (l :: ls))).resolve_left hne
    rw [List.concat_eq_append] at hu
    rw [hu] at h ⊢
    have hc : isSpace c = false := by
      by_contra hc
      rw [Bool.not_eq_false] at hc
      rw [rstrip_snoc_space _ _ hc] at h
      have := length_rstrip_le u
      rw [h] at this
      simp at this
      omega
    rw [show v ++ '\n' :: (u ++ [c]) = (v ++ '\n' :: u) ++ [c] by simp]
    exact rstrip_snoc _ _ hc

/-- C79 for one value with several lines (missing: lines that are blank, look like comments or have spaces at the ends): it is read back with all its lines. -/
theorem C79_lines_partial (sec k v : Text) (ls : List Text) (hs : PlainSection sec) (hk : PlainOption (lower k)) (hv : PlainValue v) (hl : ∀ l ∈ ls, PlainLine l) :
    ∃ text, saveStatus none sec [(k, joinLines (v :: ls))] = .ok text ∧ loadStatus (some text) = .ok [(sec, [(lower k, joinLines (v :: ls))])] := by
  have hconf : newStatus none sec [(k, joinLines (v :: ls))] = .ok [(sec, [(lower k, joinLines (v :: ls))])] := by
    simp [newStatus, loadStatus, setOption, Dict.has, Dict.get?, Dict.set]
  have htext : saveStatus none sec [(k, joinLines (v :: ls))] = .ok (writeConfig [(sec, [(lower k, joinLines (v :: ls))])]) := by
    unfold saveStatus; rw [hconf]
  refine ⟨_, htext, ?_⟩
  have hlines : fileLines (writeConfig [(sec, [(lower k, joinLines (v :: ls))])]) = ('[' :: sec ++ [']']) :: (lower k ++ ' ' :: '=' :: ' ' :: v) :: (ls.map fun l => '\t' :: l) ++ [[]] := by
    have hopt : writeOption (lower k, joinLines (v :: ls)) = (lower k ++ ' ' :: '=' :: ' ' :: v) ++ '\n' :: ls.flatMap fun l => '\t' :: l ++ ['\n'] := by
      unfold writeOption
      simp only [List.append_assoc, List.cons_append]
      rw [indentLines_join v ls hv.oneLine.1 fun l h => (hl l h).value.oneLine.1]
      simp
    unfold writeConfig writeSection
    simp only [List.flatMap_cons, List.flatMap_nil, List.append_nil, hopt]
    rw [show ('[' :: sec ++ ']' :: '\n' :: ((lower k ++ ' ' :: '=' :: ' ' :: v) ++ '\n' :: ls.flatMap fun l => '\t' :: l ++ ['\n']) ++ ['\n']) =
      ('[' :: sec ++ [']']) ++ '\n' :: ((lower k ++ ' ' :: '=' :: ' ' :: v) ++ '\n' :: ((ls.flatMap fun l => '\t' :: l ++ ['\n']) ++ ([] ++ '\n' :: []))) by simp]
    rw [fileLines_line _ _ (by simp [hs.oneLine.1]), fileLines_line _ _ (by simp [hk.value.oneLine.1, hv.oneLine.1]), fileLines_more _ fun l h => (hl l h).value.oneLine.1, fileLines_line _ _ (by simp)]
    simp [fileLines]
  unfold loadStatus readConfig
  simp only [hlines]
  rw [List.cons_append, List.foldlM_cons, readLine_section _ _ hs (by simp [Dict.keys])]
  simp only [Dict.set, bind, Except.bind]
  have h2 := readLine_option { sections := [(sec, [])], cur := some sec, opt := none, indent := 0 } sec [] rfl (by simp [Dict.get?]) (lower k) v hk hv (by simp [Dict.keys])
  rw [List.cons_append, List.foldlM_cons, h2]
  simp only [Dict.set, if_true, bind, Except.bind]
  have h3 := readLines_more sec (lower k) ls hl [v]
  rw [List.foldlM_append, h3]
  simp only [bind, Except.bind, List.foldlM_cons, List.foldlM_nil]
  have h4 : readLine { sections := [(sec, [(lower k, [v] ++ ls)])], cur := some sec, opt := some (lower k), indent := 0 } [] =
      .ok { sections := [(sec, [(lower k, [v] ++ ls ++ [[]])])], cur := some sec, opt := some (lower k), indent := 0 } := by
    unfold readLine
    have : strip [] = [] := rfl
    rw [this]
    simp [appendLine, Dict.get?, Dict.set]
  rw [h4]
  simp only [pure, Except.pure, finishSections, List.map_cons, List.map_nil]
  rw [joinLines_snoc _ (by simp), rstrip_snoc_space _ _ (by decide), List.singleton_append, rstrip_join v ls hv hl]

example : ∃ text, saveStatus none "ns".toList [("Bounds".toList, "[1. 2. 3.\n4. 5.]".toList)] = .ok text ∧ loadStatus (some text) = .ok [("ns".toList, [("bounds".toList, "[1. 2. 3.\n4. 5.]".toList)])] :=
  C79_lines_partial "ns".toList "Bounds".toList "[1. 2. 3.".toList ["4. 5.]".toList] ⟨by decide, by decide, by decide, by decide⟩ ⟨by decide, ⟨by decide, by decide⟩, by decide, by decide, by decide⟩ ⟨by decide, by decide⟩
    (by intro l h; rw [List.mem_singleton] at h; subst h; exact ⟨⟨by decide, by decide⟩, by decide, by decide⟩)

end Radvel
