import Verif.Model.Corner
import Verif.Spec.Corner
import Verif.Lemmas.Like
import Verif.Lemmas.ModelComp
import Verif.Lemmas.ReportDerived
import Mathlib.Tactic.IntervalCases

/-! # Lemmas for C161 -/

namespace Radvel

variable {α : Type}

/-- The labels of `tex_labels`: each key has the label made from it. -/
theorem texLabels_get {pp : List Text} {letters : Option (Dict Nat String)} : ∀ (ks : List Text) (d d' : Dict Text Text), ks.foldlM (labelTurn pp letters) d = .ok d' →
    (∀ k ∈ ks, ∃ l, labelOf pp letters k = .ok l ∧ d'.get? k = some l) ∧ ∀ k, k ∉ ks → d'.get? k = d.get? k
  | [], d, d', h => by cases h; exact ⟨(fun k hk => by cases hk), fun _ _ => rfl⟩
  | k :: ks, d, d', h => by
    rw [List.foldlM_cons] at h
    rcases hl : labelOf pp letters k with e | l
    · rw [labelTurn, hl] at h; cases h
    · rw [labelTurn, hl] at h
      simp only [bind, Except.bind, pure, Except.pure] at h
      obtain ⟨h1, h2⟩ := texLabels_get ks _ d' h
      refine ⟨?_, ?_⟩
      · intro q hq
        by_cases hm : q ∈ ks
        · exact h1 q hm
        · rcases List.mem_cons.1 hq with rfl | hq
          · exact ⟨l, hl, by rw [h2 _ hm, Dict.get?_set_self]⟩
          · exact absurd hq hm
      · intro q hq
        simp only [List.mem_cons, not_or] at hq
        rw [h2 q hq.2, Dict.get?_set, if_neg (Ne.symm hq.1)]

theorem texLabels_total {pp : List Text} {letters : Option (Dict Nat String)} (lab : Text → Text) : ∀ (ks : List Text) (d : Dict Text Text), (∀ k ∈ ks, labelOf pp letters k = .ok (lab k)) →
    ∃ d', ks.foldlM (labelTurn pp letters) d = .ok d'
  | [], d, _ => ⟨d, rfl⟩
  | k :: ks, d, h => by
    rw [List.foldlM_cons, labelTurn, h k (by simp)]
    exact texLabels_total lab ks _ fun q hq => h q (List.mem_cons_of_mem _ hq)

theorem axisLabel_ok {p : Params α} {lab : Text → Text} (h : ∀ k ∈ p.items.keys, labelOf (p.planetParameters.map PName.chars) p.letters k.render = .ok (lab k.render)) {k : Key}
    (hk : k ∈ p.items.keys) : p.axisLabel k = .ok (k.render, lab k.render) := by
  have h' : ∀ q ∈ p.items.keys.map Key.render, labelOf (p.planetParameters.map PName.chars) p.letters q = .ok (lab q) := by
    intro q hq
    obtain ⟨k', hk', rfl⟩ := List.mem_map.1 hq
    exact h k' hk'
  obtain ⟨d, hd⟩ := texLabels_total lab _ [] h'
  obtain ⟨h1, _⟩ := texLabels_get _ _ _ hd
  obtain ⟨l, hl, hg⟩ := h1 _ (List.mem_map_of_mem hk)
  rw [h k hk] at hl
  cases hl
  unfold Params.axisLabel Params.texLabels texLabels
  rw [hd]
  simp only [bind, Except.bind, pure, Except.pure, hg, Option.getD_some]

theorem mem_cornerLabels {p : Params α} (hn : p.items.keys.Nodup) (k : Key) : k ∈ cornerLabels p ↔ ∃ q, p.items.get? k = some q ∧ q.vary = .yes := by
  unfold cornerLabels
  rw [List.mem_map]
  constructor
  · rintro ⟨⟨k', q⟩, hm, rfl⟩
    rw [List.mem_filter] at hm
    exact ⟨q, Dict.get?_of_mem_nodup _ hn hm.1, by simpa using hm.2⟩
  · rintro ⟨q, hq, hv⟩
    exact ⟨(k, q), List.mem_filter.2 ⟨Dict.mem_of_get? _ hq, by simpa using hv⟩, rfl⟩

theorem cornerLabels_sublist (p : Params α) : (cornerLabels p).Sublist p.items.keys := by
  unfold cornerLabels Dict.keys
  exact List.Sublist.map _ List.filter_sublist

/-- The free parameters of vector and dictionary are the same. -/
theorem corner_perm [Zero α] (l : LikeState α) (hs : Built l.st) (hsync : Synced l.st) (hc : l.cache = none ∨ l.cache = some (freeRows l.st.rows))
    (htrend : ∀ k i r, k = Key.dvdt ∨ k = Key.curv → l.st.indices.get? k = some i → l.st.rows[i]? = some r → r.vary = true → k ∈ l.st.params.items.keys) :
    ∃ ks, l.nameVaryParams.2 = .ok ks ∧ (cornerLabels l.st.params).Perm ks := by
  have h := hs.namesOk
  obtain ⟨ks, a1, a2, a3⟩ := readNames_ok l.st.names (freeRows l.st.rows) (fun i hi => by
    rw [h.len]; exact freeRows_lt _ i hi)
  have hnd := hs.inv.1.nodup
  refine ⟨ks, ?_, (List.perm_ext_iff_of_nodup (List.Nodup.sublist (cornerLabels_sublist _) hnd) ?_).2 fun k => ?_⟩
  · rcases hc with hc | hc <;> simp [LikeState.nameVaryParams, hc, LikeState.listVaryParams, a1]
  · have key : ∀ (j : Nat) (k : Key), ks[j]? = some k → ∃ i, (freeRows l.st.rows)[j]? = some i ∧ l.st.indices.get? k = some i := by
      intro j k hk
      have hj : j < (freeRows l.st.rows).length := by
        rw [← a2]; exact (List.getElem?_eq_some_iff.1 hk).1
      have e1 := a3 j _ (List.getElem?_eq_getElem hj)
      rw [hk] at e1
      exact ⟨_, List.getElem?_eq_getElem hj, (h.bwd _ k e1.symm).2⟩
    rw [List.nodup_iff_getElem?_ne_getElem?]
    intro i j hij hj he
    obtain ⟨k, hk⟩ : ∃ k, ks[j]? = some k := ⟨_, List.getElem?_eq_getElem hj⟩
    obtain ⟨x, hx, hx'⟩ := key j k hk
    obtain ⟨y, hy, hy'⟩ := key i k (he.trans hk)
    rw [hx'] at hy'
    cases hy'
    exact (List.nodup_iff_getElem?_ne_getElem?.1 (nodup_freeRows l.st.rows)) i j hij (by rw [← a2]; exact hj) (hy.trans hx.symm)
  · rw [mem_cornerLabels hnd]
    constructor
    · rintro ⟨q, hq, hv⟩
      obtain ⟨i, r, hi, hr, _, hvr, _⟩ := hsync k q hq
      have hm := (mem_freeRows l.st.rows i).2 ⟨r, hr, hvr.2 hv⟩
      obtain ⟨j, hj, he⟩ := List.getElem_of_mem hm
      have e1 := a3 j i (by rw [List.getElem?_eq_getElem hj, he])
      rw [h.fwd k i (Or.inl (Dict.mem_keys_of_get? _ hq)) hi] at e1
      exact List.mem_of_getElem? e1
    · intro hk
      obtain ⟨j, hj, he⟩ := List.getElem_of_mem hk
      have hj' : j < (freeRows l.st.rows).length := by rw [← a2]; exact hj
      have e1 := a3 j _ (List.getElem?_eq_getElem hj')
      rw [List.getElem?_eq_getElem hj, he] at e1
      obtain ⟨hrel, hi⟩ := h.bwd _ k e1.symm
      obtain ⟨r, hr, hv⟩ := (mem_freeRows _ _).1 (List.getElem_mem hj')
      have hkm : k ∈ l.st.params.items.keys := by
        rcases hrel with hrel | hrel
        · exact hrel
        · refine htrend k _ r ?_ hi hr hv
          simpa using hrel
      obtain ⟨q, hq⟩ := Dict.exists_get?_of_mem _ hkm
      obtain ⟨i', r', hi', hr', _, hvr, _⟩ := hsync k q hq
      rw [hi] at hi'
      cases hi'
      rw [hr] at hr'
      cases hr'
      exact ⟨q, hq, hvr.1 hv⟩

theorem labelOf_none_ok (pp : List Text) {k : Text} (hk : k ≠ []) : ∃ t, labelOf pp none k = .ok t := by
  unfold labelOf
  rw [if_neg hk]
  unfold texLabel planetTexLabel
  cases k.getLast? with
  | none =>
    simp only
    cases texdict.find? (fun x => x.1 == k) with
    | some x => exact ⟨_, rfl⟩
    | none => simp only; split_ifs <;> exact ⟨_, rfl⟩
  | some c =>
    simp only
    split_ifs
    · exact ⟨_, rfl⟩
    all_goals
      simp only
      cases texdict.find? (fun x => x.1 == k) with
      | some x => exact ⟨_, rfl⟩
      | none => exact ⟨_, rfl⟩

/-! ### the derived plot -/

theorem derivedLoop_append (l l' : List (Nat × Text)) (s : Samples) : derivedLoop (l ++ l') s = ((derivedLoop l' (derivedLoop l s).1).1, (derivedLoop l s).2 ++ (derivedLoop l' (derivedLoop l s).1).2) := by
  induction l generalizing s with
  | nil => rfl
  | cons x l ih =>
    obtain ⟨n, key⟩ := x
    simp only [List.cons_append, derivedLoop, ih, List.append_assoc]

theorem countFrom_cons_ne {c d : Char} {sub t : Text} (h : c ≠ d) : countFrom (c :: sub) 0 (d :: t) = countFrom (c :: sub) 0 t := by
  rw [countFrom, if_neg]
  simp [List.isPrefixOf, h]

theorem countFrom_absent {c : Char} {sub : Text} : ∀ {t : Text}, c ∉ t → countFrom (c :: sub) 0 t = 0
  | [], _ => rfl
  | d :: t, h => by
    simp only [List.mem_cons, not_or] at h
    rw [countFrom_cons_ne h.1, countFrom_absent h.2]

theorem digits_no_letter (n : Nat) (c : Char) (hc : c.isDigit = false) : c ∉ digits n := by
  intro h
  have := Nat.isDigit_of_mem_toDigits (b := 10) (by norm_num) (by norm_num) h
  rw [hc] at this
  cases this

theorem derivedTex_eq {k : Text} (hk : k ∈ derivedKeys) (n : Nat) (letter : Text) : derivedTex (k ++ digits n) letter = some (derivedSymbol k letter) := by
  have hm := countFrom_absent (sub := "psini".toList) (digits_no_letter n 'm' (by decide))
  have hr := countFrom_absent (sub := "hop".toList) (digits_no_letter n 'r' (by decide))
  have ha := countFrom_absent (sub := []) (digits_no_letter n 'a' (by decide))
  simp only [derivedKeys, List.mem_cons, List.not_mem_nil, or_false] at hk
  rcases hk with rfl | rfl | rfl
  · have h1 : countFrom "mpsini".toList 0 ("mpsini".toList ++ digits n) = 1 := by
      show 1 + countFrom _ 0 (digits n) = 1
      rw [show "mpsini".toList = 'm' :: "psini".toList from rfl, hm]
    rw [derivedTex, if_pos h1]
    rfl
  · have h1 : countFrom "mpsini".toList 0 ("rhop".toList ++ digits n) = 0 := hm
    have h2 : countFrom "rhop".toList 0 ("rhop".toList ++ digits n) = 1 := by
      show 1 + countFrom _ 0 (digits n) = 1
      rw [show "rhop".toList = 'r' :: "hop".toList from rfl, hr]
    rw [derivedTex, if_neg (by rw [h1]; decide), if_pos h2]
    rfl
  · have h1 : countFrom "mpsini".toList 0 ("a".toList ++ digits n) = 0 := hm
    have h2 : countFrom "rhop".toList 0 ("a".toList ++ digits n) = 0 := hr
    have h3 : countFrom "a".toList 0 ("a".toList ++ digits n) = 1 := by
      show 1 + countFrom _ 0 (digits n) = 1
      rw [show "a".toList = 'a' :: [] from rfl, ha]
    rw [derivedTex, if_neg (by rw [h1]; decide), if_neg (by rw [h2]; decide), if_pos h3]
    rfl

/-- The pairs of planet and quantity that `DerivedPlot` looks at. -/
def derivedPairs (N : Nat) : List (Nat × Text) := (List.range N).flatMap fun i => derivedKeys.map fun k => (i + 1, k)

theorem mem_derivedLoop {l : List (Nat × Text)} {s : Samples} {x : Text × DerivedUnit} (h : x ∈ (derivedLoop l s).2) : ∃ y ∈ l, x.1 = y.2 ++ digits y.1 := by
  induction l generalizing s with
  | nil => cases h
  | cons y l ih =>
    obtain ⟨n, key⟩ := y
    simp only [derivedLoop, List.mem_append] at h
    rcases h with h | h
    · refine ⟨(n, key), by simp, ?_⟩
      unfold derivedStep at h
      simp only at h
      split_ifs at h <;> simp at h <;> rw [h]
    · obtain ⟨y, hy, he⟩ := ih h
      exact ⟨y, List.mem_cons_of_mem _ hy, he⟩

/-- `DerivedPlot.__init__` with letters makes the same columns as without, each with the letter of its planet. -/
theorem derivedInit_ok (letters : Option (Dict Nat String)) (lett : Nat → String) (s : Samples) : ∀ N, (∀ n, 1 ≤ n → n ≤ N → (plotLetters letters).get? n = some (lett n)) →
    ∃ axes, derivedInit letters N s = .ok ((derivedPlot N s).1, axes) ∧ axes.map Prod.fst = (derivedPlot N s).2.map Prod.fst ∧
      ∀ (j : Nat) q t u, axes[j]? = some (q, t) → (derivedPlot N s).2[j]? = some (q, u) →
        ∃ n k, 1 ≤ n ∧ n ≤ N ∧ k ∈ derivedKeys ∧ q = k ++ digits n ∧ t = derivedAxis (lett n).toList q u
  | 0, _ => ⟨[], rfl, rfl, by simp⟩
  | N + 1, h => by
    obtain ⟨axes, h1, h2, h3⟩ := derivedInit_ok letters lett s N (fun n a b => h n a (by omega))
    have hlen : axes.length = (derivedPlot N s).2.length := by simpa using congrArg List.length h2
    have hp : derivedPlot (N + 1) s = ((derivedLoop (derivedKeys.map fun k => (N + 1, k)) (derivedPlot N s).1).1,
        (derivedPlot N s).2 ++ (derivedLoop (derivedKeys.map fun k => (N + 1, k)) (derivedPlot N s).1).2) := by
      unfold derivedPlot
      rw [List.range_succ, List.flatMap_append, derivedLoop_append]
      simp
    have hi : derivedInit letters (N + 1) s = derivedPlanet letters ((derivedPlot N s).1, axes) (N + 1) := by
      unfold derivedInit at h1 ⊢
      rw [List.range_succ, List.map_append, List.foldlM_append, h1]
      show (derivedPlanet letters ((derivedPlot N s).1, axes) (N + 1) >>= fun x => pure x) = _
      rw [bind_pure]
    refine ⟨axes ++ (derivedLoop (derivedKeys.map fun k => (N + 1, k)) (derivedPlot N s).1).2.map fun x => (x.1, derivedAxis (lett (N + 1)).toList x.1 x.2), ?_, ?_, ?_⟩
    · rw [hi, derivedPlanet, h (N + 1) (by omega) (by omega), hp]
    · rw [hp]
      simp [h2]
    · intro j q t u ha hu
      rw [hp] at hu
      simp only at hu
      by_cases hj : j < axes.length
      · rw [List.getElem?_append_left hj] at ha
        rw [List.getElem?_append_left (by omega)] at hu
        obtain ⟨n, k, a, b, c⟩ := h3 j q t u ha hu
        exact ⟨n, k, a, by omega, c⟩
      · rw [List.getElem?_append_right (by omega)] at ha hu
        rw [hlen] at ha
        rw [List.getElem?_map, hu] at ha
        simp only [Option.map_some, Option.some.injEq, Prod.mk.injEq, true_and] at ha
        obtain ⟨y, hy, he⟩ := mem_derivedLoop (List.mem_of_getElem? hu)
        obtain ⟨k, hk, rfl⟩ := List.mem_map.1 hy
        exact ⟨N + 1, k, by omega, by omega, hk, he, ha.symm⟩

/-- The letters of `DerivedPlot` end at planet 10. -/
theorem derivedInit_eleven (s : Samples) (N : Nat) (hN : 11 ≤ N) : derivedInit none N s = .error .keyError := by
  have h10 : ∃ axes, derivedInit none 10 s = .ok ((derivedPlot 10 s).1, axes) := by
    obtain ⟨axes, h, _⟩ := derivedInit_ok none (fun n => ((plotLetters none).get? n).getD "") s 10 (fun n h1 h2 => by interval_cases n <;> rfl)
    exact ⟨axes, h⟩
  obtain ⟨axes, h⟩ := h10
  obtain ⟨m, rfl⟩ := Nat.exists_eq_add_of_le hN
  unfold derivedInit at h ⊢
  have hr : (List.range (11 + m)).map (· + 1) = (List.range 10).map (· + 1) ++ (11 :: (List.range m).map (· + 12)) := by
    rw [show 11 + m = 10 + (1 + m) by omega, List.range_add, List.map_append]
    congr 1
    rw [List.range_add]
    simp only [List.map_append, List.map_map]
    show 11 :: _ = 11 :: _
    congr 1
    refine List.map_congr_left fun x _ => ?_
    simp only [Function.comp]
    omega
  rw [hr, List.foldlM_append, h]
  rfl

end Radvel
