import Verif.Spec.PriorText
import Verif.Props.Labels

/-!
Lemmas on the texts of priors.
-/

namespace Radvel

theorem hasLabel_dollar {k l : List Char} (h : HasLabel k l) : '$' ∉ l := by
  cases h with
  | planet p n h1 h9 =>
    have : ∀ p : PName, ∀ n : Fin 10, '$' ∉ p.symbol.toList ++ "_{".toList ++ [planetLetter n.val] ++ "}".toList := by
      intro p; cases p <;> decide +kernel
    exact this p ⟨n, by omega⟩
  | instrument q x _ _ hx =>
    have : '$' ∉ q.opening.toList := by cases q <;> decide
    simp only [List.mem_append, not_or]
    exact ⟨⟨this, hx⟩, by decide⟩
  | trend => decide
  | curvature => decide

theorem hasLabel_labelOf {k l : List Char} (h : HasLabel k l) (b : BasisName) : labelOf b.texts none k = .ok ("$".toList ++ l ++ "$".toList) := by
  cases h with
  | planet p n h1 h9 =>
    have hne : (Key.orb p n).render ≠ [] := by cases p <;> exact List.cons_ne_nil _ _
    rw [labelOf, if_neg hne, C09_label_partial p n h1 h9]
    simp
  | instrument q x hx hd _ =>
    rw [C150_label_partial b none q x hx hd]
    simp
  | trend => exact (C150_shared b none).1
  | curvature => exact (C150_shared b none).2.1

theorem tex9_eq {k l : List Char} (h : HasLabel k l) : tex9 k = .ok ("$".toList ++ l ++ "$".toList) := hasLabel_labelOf h .perTcSecoswSesinwLogk

theorem replaceAll_dollar : ∀ {l : List Char}, '$' ∉ l → replaceAll "$".toList [] l = l := by
  intro l h
  apply replaceAll_none
  rw [← Bool.not_eq_true, isInfix_iff]
  rintro ⟨a, b, hab⟩
  exact h (by rw [← hab]; simp)

theorem noOverlap_dollar : ∀ {l : List Char}, '$' ∉ l → noOverlap "$".toList l = true
  | [], _ => rfl
  | c :: t, h => by
    simp only [List.mem_cons, not_or] at h
    simp only [noOverlap, noOverlap_dollar h.2, Bool.and_true, Bool.and_eq_true, Bool.not_eq_true']
    constructor
    · rw [← Bool.not_eq_true]
      intro hp
      obtain ⟨r, hr⟩ := List.isPrefixOf_iff_prefix.1 hp
      exact h.1 (List.cons.inj hr).1
    · rw [← Bool.not_eq_true]
      intro hp
      obtain ⟨r, hr⟩ := List.isPrefixOf_iff_prefix.1 hp
      exact h.1 (List.cons.inj hr).1.symm

theorem strip_dollars {l : List Char} (h : '$' ∉ l) : replaceAll "$".toList [] ("$".toList ++ l ++ "$".toList) = l := by
  rw [List.append_assoc, replaceAll_self (by decide), replaceAll_append (noOverlap_dollar h), show replaceAll "$".toList [] "$".toList = [] from rfl]
  simp

theorem InOrder.before {ps : List (List Char)} {r : List Char} (h : InOrder ps r) (a : List Char) : InOrder ps (a ++ r) := by
  cases h with
  | nil _ => exact .nil _
  | cons b p r ps h =>
    rw [show a ++ (b ++ p ++ r) = (a ++ b) ++ p ++ r by simp]
    exact .cons _ p r ps h

theorem InOrder.after {ps : List (List Char)} {r : List Char} (h : InOrder ps r) (s : List Char) : InOrder ps (r ++ s) := by
  induction h with
  | nil _ => exact .nil _
  | cons b p r ps _ ih =>
    rw [List.append_assoc]
    exact .cons b p (r ++ s) ps ih

theorem InOrder.piece {ps : List (List Char)} {r : List Char} (p : List Char) (h : InOrder ps r) : InOrder (p :: ps) (p ++ r) :=
  InOrder.cons [] p r ps h

/-! ## Eccentricities -/

theorem eccKey_eq (n : Nat) : eccKey n = (Key.orb .e n).render := rfl

/-- A line without its end. -/
def eccBody (lab : List Char → List Char) (x : Nat × List Char) : List Char :=
  "$".toList ++ lab (Key.orb .e x.1).render ++ "$".toList ++ " constrained to be $<".toList ++ x.2 ++ "$ ".toList

theorem eccLoop_eq (lab : List Char → List Char) : ∀ (l : List (Nat × List Char)) (msg : List Char), (∀ x ∈ l, 1 ≤ x.1 ∧ x.1 ≤ 9) →
    (∀ x ∈ l, HasLabel (Key.orb .e x.1).render (lab (Key.orb .e x.1).render)) →
    l.foldlM eccLine msg = Except.ok (msg ++ l.flatMap (fun x => eccBody lab x ++ "\\\\\\\\\n".toList))
  | [], msg, _, _ => by simp; rfl
  | x :: l, msg, h1, h2 => by
    have hx := h2 x (by simp)
    have hlab : labelOf (BasisName.perTcEWK.words.map PName.chars) none (eccKey x.1) = _ := hasLabel_labelOf hx .perTcEWK
    rw [List.foldlM_cons]
    have : eccLine msg x = .ok (msg ++ (eccBody lab x ++ "\\\\\\\\\n".toList)) := by
      rw [eccLine, if_pos (h1 x (by simp)), hlab]
      simp only [bind, Except.bind, pure, Except.pure]
      congr 1
      unfold eccBody
      simp only [List.append_assoc]
      rfl
    rw [this]
    simp only [bind, Except.bind]
    rw [eccLoop_eq lab l _ (fun y hy => h1 y (by simp [hy])) (fun y hy => h2 y (by simp [hy]))]
    simp only [List.flatMap_cons, List.append_assoc]

theorem dropEnd_append (n : Nat) (a b : List Char) (h : n ≤ b.length) : dropEnd n (a ++ b) = a ++ dropEnd n b := by
  unfold dropEnd
  rw [List.take_append, List.length_append]
  have h1 : a.length + b.length - n - a.length = b.length - n := by omega
  rw [h1, List.take_of_length_le (by omega)]

theorem dropEnd_self (n : Nat) (a b : List Char) (h : b.length = n) : dropEnd n (a ++ b) = a := by
  rw [dropEnd_append n a b (by omega)]
  unfold dropEnd
  rw [h]; simp

theorem eccText_inOrder (lab : List Char → List Char) : ∀ l : List (Nat × List Char),
    InOrder (l.flatMap (fun x => [lab (Key.orb .e x.1).render, x.2])) (dropEnd 5 (l.flatMap (fun x => eccBody lab x ++ "\\\\\\\\\n".toList)))
  | [] => .nil _
  | [x] => by
    simp only [List.flatMap_cons, List.flatMap_nil, List.append_nil]
    rw [dropEnd_self 5 _ _ (by decide)]
    unfold eccBody
    rw [show "$".toList ++ lab (Key.orb .e x.1).render ++ "$".toList ++ " constrained to be $<".toList ++ x.2 ++ "$ ".toList
      = "$".toList ++ (lab (Key.orb .e x.1).render ++ (("$".toList ++ " constrained to be $<".toList) ++ (x.2 ++ "$ ".toList))) by simp only [List.append_assoc]]
    exact ((((InOrder.nil _).piece x.2).before _).piece _).before _
  | x :: y :: l => by
    have ih := eccText_inOrder lab (y :: l)
    rw [List.flatMap_cons, show (x :: y :: l).flatMap (fun x => eccBody lab x ++ "\\\\\\\\\n".toList) = eccBody lab x ++ "\\\\\\\\\n".toList ++ (y :: l).flatMap (fun x => eccBody lab x ++ "\\\\\\\\\n".toList) from List.flatMap_cons ..]
    rw [dropEnd_append]
    · unfold eccBody at ih ⊢
      simp only [List.append_assoc] at ih ⊢
      exact ((((ih.before _).before _).piece x.2).before _ |>.before _ |>.piece _).before _
    · simp only [List.flatMap_cons, List.length_append]
      have : "\\\\\\\\\n".toList.length = 5 := by decide
      omega

/-! ## Lists of parameters -/

theorem labelTurn_ok {pp : List (List Char)} {letters : Option (Dict Nat String)} {d : Dict (List Char) (List Char)} {k l : List Char} (h : labelOf pp letters k = .ok l) :
    labelTurn pp letters d k = .ok (Dict.set d k l) := by
  rw [labelTurn, h]; rfl

theorem set_new_end {d : Dict (List Char) (List Char)} {k l : List Char} (h : k ∉ d.keys) : Dict.set d k l = d ++ [(k, l)] := by
  induction d with
  | nil => rfl
  | cons x t ih =>
    obtain ⟨a, b⟩ := x
    simp only [Dict.keys, List.map_cons, List.mem_cons, not_or] at h
    rw [Dict.set, if_neg (by simpa using Ne.symm h.1), List.cons_append]
    congr 1
    exact ih h.2

theorem texLabels_fold (b : BasisName) (lab : List Char → List Char) : ∀ (ks : List (List Char)) (d : Dict (List Char) (List Char)),
    (∀ k ∈ ks, HasLabel k (lab k)) → ks.Nodup → (∀ k ∈ ks, k ∉ d.keys) →
    ks.foldlM (labelTurn b.texts none) d = Except.ok (d ++ ks.map (fun k => (k, "$".toList ++ lab k ++ "$".toList)))
  | [], d, _, _, _ => by simp; rfl
  | k :: ks, d, h, hn, hd => by
    rw [List.foldlM_cons, labelTurn_ok (hasLabel_labelOf (h k (by simp)) b), set_new_end (hd k (by simp))]
    simp only [bind, Except.bind]
    rw [texLabels_fold b lab ks _ (fun x hx => h x (by simp [hx])) (List.nodup_cons.1 hn).2]
    · simp
    · intro x hx hm
      have : x ∈ d.keys ∨ x = k := by simpa [Dict.keys] using hm
      rcases this with hm | rfl
      · exact hd x (by simp [hx]) hm
      · exact (List.nodup_cons.1 hn).1 hx

theorem mapM_range_ok (t : List (List Char)) : ∀ n, n ≤ t.length →
    (List.range n).mapM (commaItem t) = Except.ok ((t.take n).map (· ++ ", ".toList))
  | 0, _ => rfl
  | n + 1, h => by
    rw [List.range_succ, List.mapM_append, mapM_range_ok t n (by omega)]
    have hn : t[n]? = some (t[n]'(by omega)) := List.getElem?_eq_getElem (by omega)
    simp only [List.mapM_cons, List.mapM_nil, commaItem, hn, bind, Except.bind, pure, Except.pure]
    rw [List.take_add_one, hn, List.map_append]
    rfl

theorem inOrder_comma (ls : List (List Char)) (last : List Char) :
    InOrder (ls ++ [last]) (((ls.map (fun l => "$".toList ++ l ++ "$".toList)).map (· ++ ", ".toList)).flatten ++ "and ".toList ++ ("$".toList ++ last ++ "$".toList)) := by
  induction ls with
  | nil =>
    simp only [List.map_nil, List.flatten_nil, List.nil_append, List.append_assoc]
    exact (((InOrder.nil _).piece last).before _).before _
  | cons a ls ih =>
    simp only [List.map_cons, List.flatten_cons, List.cons_append, List.append_assoc] at ih ⊢
    exact ((ih.before _).before _ |>.piece a).before _

theorem nameList_ok (ls : List (List Char)) (h : ls ≠ []) :
    ∃ names, nameList ls.length (ls.map (fun l => "$".toList ++ l ++ "$".toList)) = .ok names ∧ InOrder ls names := by
  match ls, h with
  | [a], _ => exact ⟨"$".toList ++ (a ++ "$".toList), rfl, (((InOrder.nil _).piece a).before _)⟩
  | [a, b], _ =>
    refine ⟨_, rfl, ?_⟩
    simp only [List.append_assoc]
    exact ((((InOrder.nil _).piece b).before _).before _ |>.before _ |>.piece a).before _
  | a :: b :: c :: ls, _ =>
    obtain ⟨init, last, hl⟩ : ∃ init last, a :: b :: c :: ls = init ++ [last] := ⟨_, _, (List.dropLast_append_getLast (List.cons_ne_nil _ _)).symm⟩
    have hlen : init.length = ls.length + 2 := by
      have := congrArg List.length hl
      simp only [List.length_cons, List.length_append, List.length_nil] at this
      omega
    rw [hl]
    refine ⟨_, ?_, inOrder_comma init last⟩
    have hl1 : (init ++ [last]).length = init.length + 1 := by simp
    rw [nameList.eq_def, if_neg (by omega), if_neg (by omega), List.length_append, List.length_singleton, Nat.add_sub_cancel, commaList,
      mapM_range_ok _ _ (by simp)]
    have h1 : List.take init.length (List.map (fun l => "$".toList ++ l ++ "$".toList) (init ++ [last])) = List.map (fun l => "$".toList ++ l ++ "$".toList) init := by
      rw [List.map_append, List.take_left' (by simp)]
    have h2 : (List.map (fun l => "$".toList ++ l ++ "$".toList) (init ++ [last]))[init.length]? = some ("$".toList ++ last ++ "$".toList) := by
      simp
    have h3 : ¬ init.length = 0 := by omega
    simp only [bind, Except.bind, pure, Except.pure, h1, lastItem, h2, if_neg h3]
    simp only [List.append_assoc]

end Radvel
