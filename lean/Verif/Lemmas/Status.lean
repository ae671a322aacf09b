import Verif.Spec.Status
import Verif.Lemmas.Dict
import Mathlib.Tactic.SplitIfs
import Mathlib.Tactic.ByContra

/-! Reading back what was written to the status file. -/

namespace Radvel

theorem fileLines_line (l t : Text) (h : '\n' ∉ l) : fileLines (l ++ '\n' :: t) = l :: fileLines t := by
  induction l with
  | nil => simp [fileLines]
  | cons c l ih =>
    simp only [List.mem_cons, not_or] at h
    rw [List.cons_append, fileLines, if_neg (Ne.symm h.1), ih h.2]

theorem length_lstrip_le (t : Text) : (lstrip t).length ≤ t.length := (List.dropWhile_sublist _).length_le

theorem length_rstrip_le (t : Text) : (rstrip t).length ≤ t.length := by
  unfold rstrip
  rw [List.length_reverse]
  have := (List.dropWhile_sublist (l := t.reverse) isSpace).length_le
  simpa using this

theorem rstrip_snoc (t : Text) (c : Char) (h : isSpace c = false) : rstrip (t ++ [c]) = t ++ [c] := by
  unfold rstrip
  simp [List.dropWhile, h]

theorem rstrip_snoc_space (t : Text) (c : Char) (h : isSpace c = true) : rstrip (t ++ [c]) = rstrip t := by
  unfold rstrip
  simp [List.dropWhile, h]

theorem lstrip_cons (t : Text) (c : Char) (h : isSpace c = false) : lstrip (c :: t) = c :: t := by simp [lstrip, List.dropWhile, h]

theorem lstrip_cons_space (t : Text) (c : Char) (h : isSpace c = true) : lstrip (c :: t) = lstrip t := by simp [lstrip, List.dropWhile, h]

theorem head_of_stripped {c : Char} {t : Text} (h : strip (c :: t) = c :: t) : isSpace c = false := by
  by_contra hc
  rw [Bool.not_eq_false] at hc
  unfold strip at h
  rw [lstrip_cons_space t c hc] at h
  have h1 := length_rstrip_le (lstrip t)
  have h2 := length_lstrip_le t
  rw [h] at h1
  simp at h1
  omega

theorem last_of_stripped {c : Char} {t : Text} (h : strip (t ++ [c]) = t ++ [c]) : isSpace c = false := by
  by_contra hc
  rw [Bool.not_eq_false] at hc
  have hl : lstrip (t ++ [c]) = t ++ [c] := by
    have h1 := length_rstrip_le (lstrip (t ++ [c]))
    have h2 := (List.dropWhile_sublist (l := t ++ [c]) isSpace)
    unfold strip at h
    rw [h] at h1
    exact h2.eq_of_length_le h1
  unfold strip at h
  rw [hl, rstrip_snoc_space t c hc] at h
  have h1 := length_rstrip_le t
  rw [h] at h1
  simp at h1
  omega

theorem stripped_rstrip {t : Text} (h : strip t = t) : rstrip t = t := by
  rcases List.eq_nil_or_concat t with rfl | ⟨u, c, rfl⟩
  · rfl
  · simp only [List.concat_eq_append] at *
    exact rstrip_snoc _ _ (last_of_stripped h)

theorem stripped_lstrip {t : Text} (h : strip t = t) : lstrip t = t := by
  rcases t with _ | ⟨c, u⟩
  · rfl
  · exact lstrip_cons _ _ (head_of_stripped h)

theorem strip_of_ends {c d : Char} {t : Text} (hc : isSpace c = false) (hd : isSpace d = false) : strip (c :: t ++ [d]) = c :: t ++ [d] := by
  unfold strip
  rw [List.cons_append, lstrip_cons _ _ hc, ← List.cons_append, rstrip_snoc _ _ hd]

theorem indentLines_plain {v : Text} (h : '\n' ∉ v) : indentLines v = v := by
  unfold indentLines
  induction v with
  | nil => rfl
  | cons c t ih =>
    simp only [List.mem_cons, not_or] at h
    rw [List.flatMap_cons, if_neg (Ne.symm h.1), ih h.2]
    rfl

/-- The line of an option, stripped. -/
theorem strip_option {k v : Text} (hk : PlainOption k) (hv : PlainValue v) : strip (k ++ ' ' :: '=' :: ' ' :: v) = k ++ ' ' :: '=' :: (if v = [] then [] else ' ' :: v) := by
  obtain ⟨c, k', rfl⟩ := List.exists_cons_of_ne_nil hk.nonempty
  have hc := head_of_stripped hk.value.stripped
  by_cases hv0 : v = []
  · subst hv0
    rw [if_pos rfl]
    unfold strip
    rw [List.cons_append, lstrip_cons _ _ hc]
    rw [show c :: (k' ++ [' ', '=', ' ']) = (c :: (k' ++ [' ', '='])) ++ [' '] by simp, rstrip_snoc_space _ _ (by decide)]
    rw [show c :: (k' ++ [' ', '=']) = (c :: (k' ++ [' '])) ++ ['='] by simp, rstrip_snoc _ _ (by decide)]
    simp
  · rw [if_neg hv0]
    obtain ⟨v', d, rfl⟩ := (List.eq_nil_or_concat v).resolve_left hv0
    simp only [List.concat_eq_append] at *
    have hd := last_of_stripped hv.stripped
    rw [show c :: k' ++ ' ' :: '=' :: ' ' :: (v' ++ [d]) = c :: (k' ++ ' ' :: '=' :: ' ' :: v') ++ [d] by simp]
    exact strip_of_ends hc hd

theorem splitOption_plain {k : Text} (hk : PlainOption k) (w : Text) : splitOption (k ++ ' ' :: '=' :: w) = some (k ++ [' '], w) := by
  have hk' : ∀ c ∈ k ++ [' '], (decide (c ≠ '=') && decide (c ≠ ':')) = true := by
    intro c hc
    rw [List.mem_append, List.mem_singleton] at hc
    rcases hc with hc | rfl
    · simp only [ne_eq, Bool.and_eq_true, decide_eq_true_eq]
      exact ⟨fun h => hk.delims.1 (h ▸ hc), fun h => hk.delims.2 (h ▸ hc)⟩
    · decide
  have e : k ++ ' ' :: '=' :: w = (k ++ [' ']) ++ '=' :: w := by simp
  unfold splitOption
  rw [e, List.dropWhile_append_of_pos hk', List.takeWhile_append_of_pos hk']
  simp [List.dropWhile, List.takeWhile]

theorem rstrip_key {k : Text} (hk : PlainOption k) : lower (rstrip (k ++ [' '])) = k := by
  rw [rstrip_snoc_space _ _ (by decide), stripped_rstrip hk.value.stripped, hk.lowered]

theorem strip_value {v : Text} (hv : PlainValue v) : strip (if v = [] then [] else ' ' :: v) = v := by
  split_ifs with h
  · subst h; rfl
  · unfold strip
    rw [lstrip_cons_space _ _ (by decide)]
    exact hv.stripped

theorem sectionHeader_plain {s : Text} (hs : PlainSection s) : sectionHeader ('[' :: s ++ [']']) = some s := by
  unfold sectionHeader
  simp [List.dropWhile, hs.nonempty]

theorem sectionHeader_other {v : Text} (h : v.head? ≠ some '[') : sectionHeader v = none := by
  unfold sectionHeader
  split
  · simp at h
  · rfl

theorem indentOf_cons {c : Char} {t : Text} (h : isSpace c = false) : indentOf (c :: t) = 0 := by simp [indentOf, List.takeWhile, h]

/-- The line of an option adds it to the current section. -/
theorem readLine_option (st : ReadState) (s : Text) (d : Dict Text (List Text)) (hcur : st.cur = some s) (hs : st.sections.get? s = some d) (k v : Text) (hk : PlainOption k) (hv : PlainValue v)
    (hnew : k ∉ d.keys) :
    readLine st (k ++ ' ' :: '=' :: ' ' :: v) = .ok { sections := st.sections.set s (d.set k [v]), cur := some s, opt := some k, indent := 0 } := by
  have hstrip := strip_option hk hv
  obtain ⟨c, k', rfl⟩ := List.exists_cons_of_ne_nil hk.nonempty
  have hc := head_of_stripped hk.value.stripped
  have hind : indentOf (c :: k' ++ ' ' :: '=' :: ' ' :: v) = 0 := by rw [List.cons_append]; exact indentOf_cons hc
  have hhead : readHead st (c :: k' ++ ' ' :: '=' :: ' ' :: v) (c :: k' ++ ' ' :: '=' :: (if v = [] then [] else ' ' :: v)) =
      .ok { sections := st.sections.set s (d.set (c :: k') [v]), cur := some s, opt := some (c :: k'), indent := 0 } := by
    unfold readHead
    rw [sectionHeader_other (by simpa using hk.start.2.2)]
    simp only [hcur, splitOption_plain hk, hs]
    rw [rstrip_key hk, strip_value hv, hind]
    have : d.has (c :: k') = false := by
      rw [← Bool.not_eq_true, Dict.has_iff]; exact hnew
    simp [this]
  unfold readLine
  rw [hstrip]
  have h1 : ¬ ((c :: k' ++ ' ' :: '=' :: (if v = [] then [] else ' ' :: v)).head? = some '#' ∨ (c :: k' ++ ' ' :: '=' :: (if v = [] then [] else ' ' :: v)).head? = some ';') := by
    have a := hk.start.1
    have b := hk.start.2.1
    simp only [List.head?_cons, ne_eq] at a b
    simp only [List.cons_append, List.head?_cons]
    rintro (h | h)
    · exact a h
    · exact b h
  simp only [if_neg h1, hcur]
  rcases st.opt with _ | o
  · simp only [List.cons_append, reduceCtorEq, if_false]
    exact hhead
  · simp only [List.cons_append, reduceCtorEq, if_false]
    rw [if_neg (by rw [← List.cons_append, hind]; omega)]
    exact hhead

theorem readLine_section (st : ReadState) (s : Text) (hs : PlainSection s) (hnew : s ∉ st.sections.keys) :
    readLine st ('[' :: s ++ [']']) = .ok { sections := st.sections.set s [], cur := some s, opt := none, indent := 0 } := by
  have hstrip : strip ('[' :: s ++ [']']) = '[' :: s ++ [']'] := strip_of_ends (by decide) (by decide)
  have hind : indentOf ('[' :: s ++ [']']) = 0 := by rw [List.cons_append]; exact indentOf_cons (by decide)
  have hhead : readHead st ('[' :: s ++ [']']) ('[' :: s ++ [']']) = .ok { sections := st.sections.set s [], cur := some s, opt := none, indent := 0 } := by
    unfold readHead
    rw [sectionHeader_plain hs, hind]
    have : st.sections.has s = false := by rw [← Bool.not_eq_true, Dict.has_iff]; exact hnew
    simp [this]
  unfold readLine
  rw [hstrip, if_neg (by simp)]
  rcases st.cur with _ | s' <;> rcases st.opt with _ | o
  all_goals simp only [List.cons_append, reduceCtorEq, if_false]
  · exact hhead
  · exact hhead
  · exact hhead
  · rw [if_neg (by rw [← List.cons_append, hind]; omega)]
    exact hhead

theorem toLower_idem (c : Char) : c.toLower.toLower = c.toLower := by
  by_cases h : c.val ≥ 'A'.val ∧ c.val ≤ 'Z'.val
  · have e : c.toLower.val = c.val + ('a'.val - 'A'.val) := by unfold Char.toLower; rw [dif_pos h]
    generalize c.toLower = d at e
    unfold Char.toLower
    rw [dif_neg]
    rw [e]
    intro h2
    have a := h.1
    have b := h.2
    have c' := h2.2
    have k1 : 'A'.val.toNat = 65 := rfl
    have k2 : 'Z'.val.toNat = 90 := rfl
    have k3 : ('a'.val - 'A'.val).toNat = 32 := rfl
    rw [ge_iff_le, UInt32.le_iff_toNat_le] at a
    rw [UInt32.le_iff_toNat_le] at b c'
    rw [UInt32.toNat_add, k3, k2] at c'
    rw [k1] at a
    rw [k2] at b
    omega
  · have e : c.toLower = c := by unfold Char.toLower; rw [dif_neg h]
    rw [e, e]

theorem lower_idem (t : Text) : lower (lower t) = lower t := by
  unfold lower
  rw [List.map_map]
  apply List.map_congr_left
  intro c _
  exact toLower_idem c

theorem set_set_same {ν : Type} (c : Dict Text ν) (s : Text) (x y : ν) : (c.set s x).set s y = c.set s y := by
  induction c with
  | nil => simp [Dict.set]
  | cons a t ih =>
    simp only [Dict.set]
    split_ifs with h
    · simp [Dict.set]
    · simp [Dict.set, h, ih]

/-- The lines of a list of options. -/
def optionLines (d : Dict Text Text) : List Text := d.map fun o => o.1 ++ ' ' :: '=' :: ' ' :: o.2

theorem readLine_options (s : Text) : ∀ (d : Dict Text Text) (st : ReadState) (d0 : Dict Text (List Text)), st.cur = some s → st.sections.get? s = some d0 → (∀ k v, (k, v) ∈ d → PlainOption k ∧ PlainValue v) →
    (d0.keys ++ d.keys).Nodup → (∀ o, st.opt = some o → o ∈ d0.keys) →
    ∃ st', (optionLines d).foldlM readLine st = .ok st' ∧ st'.cur = some s ∧ st'.sections = st.sections.set s (d0 ++ d.map fun o => (o.1, [o.2])) ∧
      ∀ o, st'.opt = some o → o ∈ (d0 ++ d.map fun o => (o.1, [o.2])).keys := by
  intro d
  induction d with
  | nil =>
    intro st d0 hc hs _ _ ho
    refine ⟨st, rfl, hc, ?_, by simpa using ho⟩
    simp only [List.map_nil, List.append_nil]
    refine Eq.symm ?_
    clear ho hc
    rcases st with ⟨sec, _, _, _⟩
    simp only at hs ⊢
    induction sec with
    | nil => simp [Dict.get?] at hs
    | cons a t ih =>
      simp only [Dict.get?] at hs
      simp only [Dict.set]
      split_ifs at hs ⊢ with h
      · cases hs; subst h; rfl
      · rw [ih hs]
  | cons o d ih =>
    intro st d0 hc hs hp hn ho
    obtain ⟨k, v⟩ := o
    obtain ⟨hk, hv⟩ := hp k v (by simp)
    have hnew : k ∉ d0.keys := by
      intro h
      rw [Dict.keys, Dict.keys, List.map_cons] at hn
      exact (List.nodup_append.1 hn).2.2 k h k (by simp) rfl
    have h1 := readLine_option st s d0 hc hs k v hk hv hnew
    have hset : d0.set k [v] = d0 ++ [(k, [v])] := by
      clear ih hs ho hn h1
      induction d0 with
      | nil => rfl
      | cons a t ih2 =>
        simp only [Dict.keys, List.map_cons, List.mem_cons, not_or] at hnew
        simp only [Dict.set]
        rw [if_neg (Ne.symm hnew.1), ih2 hnew.2]
        rfl
    obtain ⟨st', e1, e2, e3, e4⟩ := ih { sections := st.sections.set s (d0.set k [v]), cur := some s, opt := some k, indent := 0 } (d0.set k [v]) rfl (Dict.get?_set_self _ _ _)
      (fun k v h => hp k v (by simp [h])) (by rw [hset]; simpa [Dict.keys] using hn) (by rintro o h; cases h; rw [hset]; simp [Dict.keys])
    refine ⟨st', ?_, e2, ?_, ?_⟩
    · show (readLine st (k ++ ' ' :: '=' :: ' ' :: v) >>= _) = _
      rw [h1]
      exact e1
    · rw [e3, hset]
      rw [set_set_same]
      simp
    · intro o h
      have := e4 o h
      rw [hset] at this
      simpa using this

theorem joinLines_snoc : ∀ (ls : List Text), ls ≠ [] → joinLines (ls ++ [[]]) = joinLines ls ++ ['\n']
  | [], h => absurd rfl h
  | [l], _ => by simp [joinLines]
  | l :: m :: ls, _ => by
    have := joinLines_snoc (m :: ls) (by simp)
    show l ++ '\n' :: joinLines ((m :: ls) ++ [[]]) = _
    rw [this]
    simp [joinLines]

/-- What the values of a section become at the end. -/
def finishOptions (d : Dict Text (List Text)) : Dict Text Text := d.map fun o => (o.1, rstrip (joinLines o.2))

theorem finishOptions_append (d : Dict Text (List Text)) (o : Text) (ls : List Text) (hn : d.keys.Nodup) (h : d.get? o = some ls) (hls : ls ≠ []) : finishOptions (d.set o (ls ++ [[]])) = finishOptions d := by
  unfold finishOptions
  induction d with
  | nil => simp [Dict.get?] at h
  | cons a t ih =>
    simp only [Dict.keys, List.map_cons, List.nodup_cons] at hn
    simp only [Dict.get?] at h
    simp only [Dict.set]
    split_ifs at h ⊢ with hc
    · cases h
      subst hc
      simp only [List.map_cons]
      rw [joinLines_snoc _ hls, rstrip_snoc_space _ _ (by decide)]
    · simp only [List.map_cons]
      rw [ih hn.2 h]

theorem set_new {ν : Type} (c : Dict Text ν) (s : Text) (d : ν) (h : s ∉ c.keys) : c.set s d = c ++ [(s, d)] := by
  induction c with
  | nil => rfl
  | cons a t ih =>
    simp only [Dict.keys, List.map_cons, List.mem_cons, not_or] at h
    simp only [Dict.set]
    rw [if_neg (Ne.symm h.1), ih h.2]
    rfl

theorem set_last {ν : Type} (c : Dict Text ν) (s : Text) (d e : ν) (h : s ∉ c.keys) : (c ++ [(s, d)] : Dict Text ν).set s e = c ++ [(s, e)] := by
  rw [← set_new c s d h, ← set_new c s e h, set_set_same]

theorem get?_last {ν : Type} (c : Dict Text ν) (s : Text) (d : ν) (h : s ∉ c.keys) : Dict.get? (c ++ [(s, d)]) s = some d := by
  rw [← set_new c s d h, Dict.get?_set_self]

/-- Reading one section. -/
theorem read_section (st : ReadState) (s : Text) (d : Dict Text Text) (hs : PlainSection s) (hnew : s ∉ st.sections.keys) (hn : d.keys.Nodup) (hp : ∀ k v, (k, v) ∈ d → PlainOption k ∧ PlainValue v) :
    ∃ st' d', (('[' :: s ++ [']']) :: optionLines d ++ [[]]).foldlM readLine st = .ok st' ∧ st'.sections = st.sections ++ [(s, d')] ∧ finishOptions d' = d := by
  have h1 := readLine_section st s hs hnew
  obtain ⟨st2, e1, e2, e3, e4⟩ := readLine_options s d { sections := st.sections.set s [], cur := some s, opt := none, indent := 0 } [] rfl (Dict.get?_set_self _ _ _) hp (by simpa [Dict.keys] using hn) (by simp)
  simp only [List.nil_append, set_new _ _ _ hnew, set_last _ _ _ _ hnew] at e3 e4
  have hfin : finishOptions (d.map fun o => (o.1, [o.2])) = d := by
    unfold finishOptions
    rw [List.map_map]
    conv_rhs => rw [← List.map_id d]
    apply List.map_congr_left
    rintro ⟨k, v⟩ h
    simp only [Function.comp, joinLines, id]
    rw [stripped_rstrip (hp k v h).2.stripped]
  have hlast : ∃ st' d', readLine st2 [] = .ok st' ∧ st'.sections = st.sections ++ [(s, d')] ∧ finishOptions d' = d := by
    have hv : strip [] = [] := rfl
    unfold readLine
    rw [hv]
    simp only [List.head?_nil, reduceCtorEq, or_self, if_false, e2]
    rcases ho : st2.opt with _ | o
    · exact ⟨st2, _, by simp, e3, hfin⟩
    · simp only [if_true]
      have hmem := e4 o ho
      obtain ⟨ls, hls⟩ := Dict.exists_get?_of_mem _ hmem
      have hne : ls ≠ [] := by
        have := Dict.mem_of_get? _ hls
        rw [List.mem_map] at this
        obtain ⟨x, _, hx⟩ := this
        simp only [Prod.mk.injEq] at hx
        rw [← hx.2]; simp
      refine ⟨_, Dict.set (d.map fun o => (o.1, [o.2])) o (ls ++ [[]]), rfl, ?_, ?_⟩
      · unfold appendLine
        rw [e3, get?_last _ _ _ hnew]
        simp only [hls]
        rw [set_last _ _ _ _ hnew]
      · rw [finishOptions_append _ _ _ (by rw [Dict.keys, List.map_map]; exact hn) hls hne, hfin]
  obtain ⟨st', d', f1, f2, f3⟩ := hlast
  refine ⟨st', d', ?_, f2, f3⟩
  rw [List.cons_append, List.foldlM_cons, h1]
  show (optionLines d ++ [[]]).foldlM readLine _ = _
  rw [List.foldlM_append, e1]
  show (readLine st2 [] >>= _) = _
  rw [f1]
  rfl

theorem fileLines_section (s : Text) (d : Dict Text Text) (t : Text) (hs : PlainSection s) (hp : ∀ k v, (k, v) ∈ d → PlainOption k ∧ PlainValue v) :
    fileLines (writeSection (s, d) ++ t) = ('[' :: s ++ [']']) :: optionLines d ++ [[]] ++ fileLines t := by
  have hopts : ∀ (d : Dict Text Text) (u : Text), (∀ k v, (k, v) ∈ d → PlainOption k ∧ PlainValue v) → fileLines (d.flatMap writeOption ++ u) = optionLines d ++ fileLines u := by
    intro d
    induction d with
    | nil => intro u _; rfl
    | cons o d ih =>
      intro u hp
      obtain ⟨k, v⟩ := o
      obtain ⟨hk, hv⟩ := hp k v (by simp)
      rw [List.flatMap_cons, writeOption, indentLines_plain hv.oneLine.1]
      rw [show (k ++ ' ' :: '=' :: ' ' :: v ++ ['\n'] ++ List.flatMap writeOption d ++ u) = (k ++ ' ' :: '=' :: ' ' :: v) ++ '\n' :: (List.flatMap writeOption d ++ u) by simp]
      rw [fileLines_line, ih u fun k v h => hp k v (by simp [h])]
      · simp [optionLines]
      · simp [hk.value.oneLine.1, hv.oneLine.1]
  unfold writeSection
  rw [show ('[' :: s ++ ']' :: '\n' :: d.flatMap writeOption ++ ['\n'] ++ t) = ('[' :: s ++ [']']) ++ '\n' :: (d.flatMap writeOption ++ ([] ++ '\n' :: t)) by simp]
  rw [fileLines_line, hopts d _ hp, fileLines_line]
  · simp
  · simp
  · simp [hs.oneLine.1]

/-- What was written is read back. -/
theorem read_write (c : Config) (hc : PlainConfig c) : readConfig (writeConfig c) = .ok c := by
  have key : ∀ (c : Config) (st : ReadState), PlainConfig c → (st.sections.keys ++ c.keys).Nodup → ∃ st', (fileLines (writeConfig c)).foldlM readLine st = .ok st' ∧
      finishSections st'.sections = finishSections st.sections ++ c := by
    intro c
    induction c with
    | nil => intro st _ _; exact ⟨st, rfl, by simp⟩
    | cons a c ih =>
      intro st hc hn
      obtain ⟨s, d⟩ := a
      have hnew : s ∉ st.sections.keys := by
        intro h
        rw [Dict.keys, Dict.keys, List.map_cons] at hn
        exact (List.nodup_append.1 hn).2.2 s h s (by simp) rfl
      obtain ⟨st1, d', e1, e2, e3⟩ := read_section st s d (hc.names s d (by simp)) hnew (hc.options s d (by simp)) (hc.plain s d (by simp))
      obtain ⟨st2, f1, f2⟩ := ih st1 ⟨(List.nodup_cons.1 hc.sections).2, fun s d h => hc.names s d (by simp [h]), fun s d h => hc.options s d (by simp [h]), fun s d h => hc.plain s d (by simp [h])⟩
        (by rw [e2]; simpa [Dict.keys] using hn)
      refine ⟨st2, ?_, ?_⟩
      · unfold writeConfig
        rw [List.flatMap_cons, fileLines_section s d _ (hc.names s d (by simp)) (hc.plain s d (by simp)), List.foldlM_append, e1]
        exact f1
      · rw [f2, e2]
        unfold finishSections
        rw [List.map_append, List.append_assoc]
        congr 1
        simp only [List.map_cons, List.map_nil, List.singleton_append]
        congr 2
  obtain ⟨st', e1, e2⟩ := key c { sections := [], cur := none, opt := none, indent := 0 } hc (by simpa [Dict.keys] using hc.sections)
  unfold readConfig
  rw [e1]
  simp only []
  rw [e2]
  rfl

end Radvel
