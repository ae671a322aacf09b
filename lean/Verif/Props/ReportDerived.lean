import Verif.Lemmas.ReportDerived
import Mathlib.Tactic.NormNum

/-! # C114, C115: the report's table of derived parameters -/

namespace Radvel

/-! ## C114: one row per derived parameter -/

theorem mem_setOf {order : List Text → List Text} (ho : ∀ l, (order l).Perm l) (l : List Text) (q : Text) : q ∈ setOf order l ↔ q ∈ l := by
  unfold setOf
  rw [(ho _).mem_iff, mem_dedup_foldr]

theorem nodup_setOf {order : List Text → List Text} (ho : ∀ l, (order l).Perm l) (l : List Text) : (setOf order l).Nodup := by
  unfold setOf
  rw [(ho _).nodup_iff]
  exact nodup_dedup_foldr l

theorem DerivedUnit.text_ne (u : DerivedUnit) : u.text ≠ [] := by cases u <;> decide

theorem nodup_filterMap_of_source (f : Text → Option TexRow) (l : List Text) (hl : l.Nodup) (g : Text → Text) (hg : ∀ a ∈ l, ∀ b ∈ l, g a = g b → a = b) (hf : ∀ p ∈ l, ∀ row, f p = some row → row.source = g p) :
    (l.filterMap f).Nodup := by
  induction l with
  | nil => simp
  | cons a l ih =>
    rw [List.nodup_cons] at hl
    have h := ih hl.2 (fun x hx y hy => hg x (List.mem_cons_of_mem _ hx) y (List.mem_cons_of_mem _ hy)) fun p hp => hf p (List.mem_cons_of_mem _ hp)
    rw [List.filterMap_cons]
    rcases hfa : f a with _ | row
    · exact h
    · simp only
      rw [List.nodup_cons]
      refine ⟨?_, h⟩
      intro hm
      obtain ⟨b, hb, hfb⟩ := List.mem_filterMap.1 hm
      have e : g a = g b := by rw [← hf a (List.mem_cons_self ..) row hfa, ← hf b (List.mem_cons_of_mem _ hb) row hfb]
      have := hg a (List.mem_cons_self ..) b (List.mem_cons_of_mem _ hb) e
      subst this
      exact hl.1 hb

/-- C114 (missing: ten or more planets; false for those, next theorem): with at most nine planets the table of derived parameters has, in whatever order Python iterates over the set of names, exactly one row for every derived
parameter that is in the samples without nan, showing its own numbers and its own unit, and no other rows. -/
theorem C114_rows_partial (order : List Text → List Text) (ho : ∀ l, (order l).Perm l) (units : Dict Text Text) (insts : List Text) (r : ReportNames) (s : Samples) (N : Nat) (hN : N ≤ 9)
    (hcols : r.columns = s.keys) (hplain : ∀ k ∈ ["mpsini".toList, "rhop".toList, "a".toList], k ∉ s.keys ∧ units.get? k = none)
    (hmax : ∀ k ∈ ["mpsini".toList, "rhop".toList, "a".toList], ∀ n, k ++ Nat.toDigits 10 n ∉ r.maxparams) :
    (tabDerived order units insts r (derivedPlot N s).2 N).Perm ((derivedPlot N s).2.map fun x => ⟨x.1, x.2.text⟩) := by
  set labels := (derivedPlot N s).2 with hlabels
  have hnodup : (labels.map Prod.fst).Nodup := by
    rw [hlabels]
    unfold derivedPlot
    rw [derivedLoop_labels _ _ (nodup_labels N)]
    have := nodup_labels N
    generalize ((List.range N).flatMap fun i => derivedKeys.map fun k => (i + 1, k)) = l at this
    induction l with
    | nil => simp
    | cons x l ih =>
      rw [List.map_cons, List.nodup_cons] at this
      rw [List.filterMap_cons]
      rcases hx : derivedLabelOf s x.1 x.2 with _ | y
      · exact ih this.2
      · simp only [List.map_cons, List.nodup_cons]
        refine ⟨?_, ih this.2⟩
        intro hm
        obtain ⟨z, hz, hzy⟩ := List.mem_map.1 hm
        obtain ⟨w, hw, hwz⟩ := List.mem_filterMap.1 hz
        have e1 : y.1 = x.2 ++ digits x.1 := by
          unfold derivedLabelOf at hx
          by_cases hs : shown s (x.2 ++ digits x.1) = true
          · rw [if_pos hs] at hx; exact (Option.some.inj hx) ▸ rfl
          · rw [if_neg hs] at hx; cases hx
        have e2 : z.1 = w.2 ++ digits w.1 := by
          unfold derivedLabelOf at hwz
          by_cases hs : shown s (w.2 ++ digits w.1) = true
          · rw [if_pos hs] at hwz; exact (Option.some.inj hwz) ▸ rfl
          · rw [if_neg hs] at hwz; cases hwz
        exact this.1 (List.mem_map.2 ⟨w, hw, by rw [← e2, hzy, e1]⟩)
  have hmem : ∀ q u, (q, u) ∈ labels ↔ ∃ n k, 1 ≤ n ∧ n ≤ N ∧ k ∈ derivedKeys ∧ q = k ++ digits n ∧ shown s q = true ∧
      u = if k = "mpsini".toList then (massUnit (colMedian ((s.get? q).getD []))).1 else if k = "rhop".toList then .density else .au := mem_derivedPlot_labels N s
  have hdrop : ∀ q, q ∈ (labels.map Prod.fst).map List.dropLast ↔ q ∈ derivedKeys ∧ ∃ n, 1 ≤ n ∧ n ≤ N ∧ shown s (q ++ digits n) = true := by
    intro q
    simp only [List.mem_map]
    constructor
    · rintro ⟨q', ⟨⟨q'', u⟩, hm, rfl⟩, rfl⟩
      obtain ⟨n, k, h1, h2, h3, rfl, h4, _⟩ := (hmem _ _).1 hm
      rw [dropLast_label k n (by omega)]
      exact ⟨h3, n, h1, h2, h4⟩
    · rintro ⟨hk, n, h1, h2, h3⟩
      exact ⟨_, ⟨(q ++ digits n, _), (hmem _ _).2 ⟨n, q, h1, h2, hk, rfl, h3, rfl⟩, rfl⟩, dropLast_label q n (by omega)⟩
  have hwords : splitWords (derivedBasis order (labels.map Prod.fst)) = setOf order ((labels.map Prod.fst).map List.dropLast) := by
    unfold derivedBasis
    refine splitWords_joinWords _ fun w hw => ?_
    rw [mem_setOf ho, hdrop] at hw
    have := hw.1
    simp only [derivedKeys, List.mem_cons, List.not_mem_nil, or_false] at this
    rcases this with rfl | rfl | rfl <;> exact ⟨by decide, by decide⟩
  have hshown : ∀ q, shown s q = true → q ∈ s.keys := by
    intro q hq
    unfold shown at hq
    rcases hg : s.get? q with _ | col
    · rw [hg] at hq; cases hq
    · exact Dict.mem_keys_of_get? _ hg
  -- the row of a name and a planet
  have hrow : ∀ k ∈ derivedKeys, ∀ n, 1 ≤ n → n ≤ N → ∀ row, dataRow (units.update (labels.map fun x => (x.1, x.2.text))) ((suffixList insts).map fun s => '_' :: s)
      { r with maxparams := r.maxparams ++ labels.map Prod.fst, labels := r.labels ++ labels.map Prod.fst } n k = some row ↔ ∃ u, (k ++ digits n, u) ∈ labels ∧ row = ⟨k ++ digits n, u.text⟩ := by
    intro k hk n h1 h2 row
    have hku : k ∈ ["mpsini".toList, "rhop".toList, "a".toList] := hk
    by_cases hm : k ++ digits n ∈ labels.map Prod.fst
    · obtain ⟨⟨q, u⟩, hq, hqe⟩ := List.mem_map.1 hm
      simp only at hqe
      subst hqe
      have hcol : k ++ digits n ∈ r.columns := by
        obtain ⟨_, _, _, _, _, _, h4, _⟩ := (hmem _ _).1 hq
        rw [hcols]; exact hshown _ h4
      rw [dataRow_column _ _ { r with maxparams := r.maxparams ++ labels.map Prod.fst, labels := r.labels ++ labels.map Prod.fst } _ _ hcol, if_pos ⟨List.mem_append_right _ hm, List.mem_append_right _ hm⟩]
      have hkeys : Dict.keys (labels.map fun x => (x.1, x.2.text)) = labels.map Prod.fst := by
        rw [Dict.keys, List.map_map]; rfl
      have hget : (units.update (labels.map fun x => (x.1, x.2.text))).get? (k ++ digits n) = some u.text := by
        rw [Dict.get?_update _ _ (by rw [hkeys]; exact hnodup), Dict.get?_of_mem_nodup (labels.map fun x => (x.1, x.2.text)) (by rw [hkeys]; exact hnodup) (List.mem_map.2 ⟨(k ++ digits n, u), hq, rfl⟩)]
        rfl
      have hgetk : (units.update (labels.map fun x => (x.1, x.2.text))).get? k = none := by
        rw [Dict.get?_update _ _ (by rw [hkeys]; exact hnodup), (hplain k hku).2, (Dict.get?_eq_none_iff _ _).2]
        · rfl
        · rw [hkeys]
          intro hm'
          obtain ⟨⟨q', u'⟩, hq', hqe'⟩ := List.mem_map.1 hm'
          simp only at hqe'
          subst hqe'
          obtain ⟨_, _, _, _, _, _, h4, _⟩ := (hmem _ _).1 hq'
          exact (hplain _ hku).1 (hshown _ h4)
      have hunit : rowUnit (units.update (labels.map fun x => (x.1, x.2.text))) ((suffixList insts).map fun s => '_' :: s) k (k ++ digits n) = u.text := by
        have e1 : unitGet (units.update (labels.map fun x => (x.1, x.2.text))) k = [] := by rw [unitGet, hgetk]; rfl
        have e2 : (units.update (labels.map fun x => (x.1, x.2.text))).has (k ++ digits n) = true := by rw [Dict.has, hget]; rfl
        have e3 : unitGet (units.update (labels.map fun x => (x.1, x.2.text))) (k ++ digits n) = u.text := by rw [unitGet, hget]; rfl
        unfold rowUnit
        rw [e1, e2, e3]
        simp
      rw [hunit]
      constructor
      · intro h; exact ⟨u, hq, (Option.some.inj h).symm⟩
      · rintro ⟨u', hu', rfl⟩
        have : u' = u := by
          obtain ⟨n', k', _, _, hk', he, _, hu⟩ := (hmem _ _).1 hq
          obtain ⟨n'', k'', _, _, hk'', he', _, hu''⟩ := (hmem _ _).1 hu'
          obtain ⟨rfl, rfl⟩ := label_inj _ _ hk hk' _ _ he
          obtain ⟨rfl, rfl⟩ := label_inj _ _ hk hk'' _ _ he'
          rw [hu, hu'']
        rw [this]
    · have hno : ¬ ∃ u, (k ++ digits n, u) ∈ labels ∧ row = ⟨k ++ digits n, u.text⟩ := by
        rintro ⟨u, hu, _⟩
        exact hm (List.mem_map.2 ⟨_, hu, rfl⟩)
      simp only [hno, iff_false]
      intro h
      unfold dataRow texRow rowName at h
      simp only at h
      by_cases hcol : k ++ digits n ∈ r.columns
      · rw [if_pos hcol] at h
        split_ifs at h with hc
        rcases List.mem_append.1 hc.2.1 with h' | h'
        · exact hmax k hku n h'
        · exact hm h'
      · rw [if_neg hcol, dropLast_label k n (by omega)] at h
        split_ifs at h with hc
        rw [hcols] at hc
        exact (hplain k hku).1 hc.1
  -- membership and uniqueness
  unfold tabDerived dataRows
  simp only [hwords]
  have hset : ∀ p ∈ setOf order ((labels.map Prod.fst).map List.dropLast), p ∈ derivedKeys := by
    intro p hp
    rw [mem_setOf ho, hdrop] at hp
    exact hp.1
  refine (List.perm_ext_iff_of_nodup ?_ ?_).2 ?_
  · rw [List.nodup_flatMap]
    refine ⟨fun i hi => ?_, ?_⟩
    · have hi' := List.mem_range.1 hi
      refine nodup_filterMap_of_source _ _ (nodup_setOf ho _) (fun p => p ++ digits (i + 1)) (fun a _ b _ h => List.append_cancel_right h) fun p hp row h => ?_
      obtain ⟨u, _, rfl⟩ := (hrow p (hset p hp) (i + 1) (by omega) (by omega) row).1 h
      rfl
    · refine (List.nodup_range (n := N)).imp_of_mem fun {i j} hi hj hne => ?_
      have hi' := List.mem_range.1 hi
      have hj' := List.mem_range.1 hj
      intro row h1 h2
      obtain ⟨p, hp, h1⟩ := List.mem_filterMap.1 h1
      obtain ⟨p', hp', h2⟩ := List.mem_filterMap.1 h2
      obtain ⟨u, _, rfl⟩ := (hrow p (hset p hp) (i + 1) (by omega) (by omega) row).1 h1
      obtain ⟨u', _, he⟩ := (hrow p' (hset p' hp') (j + 1) (by omega) (by omega) _).1 h2
      have := (label_inj _ _ (hset p hp) (hset p' hp') _ _ (TexRow.mk.inj he).1).2
      omega
  · have : ((labels.map fun x => (⟨x.1, x.2.text⟩ : TexRow)).map TexRow.source).Nodup := by
      rw [List.map_map]; exact hnodup
    exact List.Nodup.of_map _ this
  · intro row
    rw [List.mem_flatMap, List.mem_map]
    constructor
    · rintro ⟨i, hi, h⟩
      have hi' := List.mem_range.1 hi
      obtain ⟨p, hp, h⟩ := List.mem_filterMap.1 h
      obtain ⟨u, hu, rfl⟩ := (hrow p (hset p hp) (i + 1) (by omega) (by omega) row).1 h
      exact ⟨_, hu, rfl⟩
    · rintro ⟨⟨q, u⟩, hq, rfl⟩
      obtain ⟨n, k, h1, h2, hk, rfl, h4, _⟩ := (hmem _ _).1 hq
      refine ⟨n - 1, List.mem_range.2 (by omega), List.mem_filterMap.2 ⟨k, ?_, ?_⟩⟩
      · rw [mem_setOf ho, hdrop]
        exact ⟨hk, n, h1, h2, h4⟩
      · rw [show n - 1 + 1 = n by omega]
        exact (hrow k hk n h1 h2 _).2 ⟨u, hq, rfl⟩

/-- Non-vacuity: masses and semi-major axes of two planets. -/
example : (tabDerived id texUnits [] ⟨["mpsini1".toList, "a1".toList, "mpsini2".toList], [], []⟩
      (derivedPlot 2 [("mpsini1".toList, [some 5]), ("a1".toList, [some 1]), ("mpsini2".toList, [some 7])]).2 2).Perm
    ((derivedPlot 2 [("mpsini1".toList, [some 5]), ("a1".toList, [some 1]), ("mpsini2".toList, [some 7])]).2.map fun x => ⟨x.1, x.2.text⟩) :=
  C114_rows_partial id (fun _ => .refl _) texUnits [] _ _ 2 (by decide) rfl (by decide) (by simp)

theorem two_le_count (f : Text → Option TexRow) (l : List Text) (a b q : Text) (ha : a ∈ l) (hb : b ∈ l) (hab : a ≠ b) (hfa : (f a).map TexRow.source = some q) (hfb : (f b).map TexRow.source = some q) :
    2 ≤ ((l.filterMap f).map TexRow.source).count q := by
  have hb' : b ∈ l.erase a := (List.mem_erase_of_ne hab.symm).2 hb
  have hp : l.Perm (a :: b :: (l.erase a).erase b) := (List.perm_cons_erase ha).trans ((List.perm_cons_erase hb').cons a)
  rw [((hp.filterMap f).map TexRow.source).count_eq]
  rcases h1 : f a with _ | x
  · rw [h1] at hfa; cases hfa
  · rcases h2 : f b with _ | y
    · rw [h2] at hfb; cases hfb
    · rw [h1] at hfa
      rw [h2] at hfb
      simp only [Option.map_some, Option.some.injEq] at hfa hfb
      rw [List.filterMap_cons, h1, List.filterMap_cons, h2]
      simp only [List.map_cons, hfa, hfb, List.count_cons_self]
      omega

/-- C114 is false for ten planets: in whatever order Python iterates over the set, the mass of the first planet has at least two rows, if the first and the tenth planet have masses. -/
theorem C114_ten_violated (order : List Text → List Text) (ho : ∀ l, (order l).Perm l) (units : Dict Text Text) (insts : List Text) (r : ReportNames) (s : Samples) (hcols : r.columns = s.keys)
    (h1 : shown s "mpsini1".toList = true) (h10 : shown s "mpsini10".toList = true) (h11 : "mpsini11".toList ∉ s.keys) :
    2 ≤ ((tabDerived order units insts r (derivedPlot 10 s).2 10).map TexRow.source).count "mpsini1".toList := by
  set labels := (derivedPlot 10 s).2 with hlabels
  have m1 : "mpsini1".toList ∈ labels.map Prod.fst := List.mem_map.2 ⟨("mpsini1".toList, _), (mem_derivedPlot_labels 10 s _ _).2 ⟨1, "mpsini".toList, by decide, by decide, by decide, by decide, h1, rfl⟩, rfl⟩
  have m10 : "mpsini10".toList ∈ labels.map Prod.fst := List.mem_map.2 ⟨("mpsini10".toList, _), (mem_derivedPlot_labels 10 s _ _).2 ⟨10, "mpsini".toList, by decide, by decide, by decide, by decide, h10, rfl⟩, rfl⟩
  have hcol1 : "mpsini1".toList ∈ r.columns := by
    rw [hcols]
    unfold shown at h1
    rcases hg : s.get? "mpsini1".toList with _ | col
    · rw [hg] at h1; cases h1
    · exact Dict.mem_keys_of_get? _ hg
  have hwords : splitWords (derivedBasis order (labels.map Prod.fst)) = setOf order ((labels.map Prod.fst).map List.dropLast) := by
    unfold derivedBasis
    refine splitWords_joinWords _ fun w hw => ?_
    rw [mem_setOf ho] at hw
    obtain ⟨q, hq, rfl⟩ := List.mem_map.1 hw
    obtain ⟨⟨q', u⟩, hq', rfl⟩ := List.mem_map.1 hq
    obtain ⟨n, k, hn1, hn2, hk, rfl, _⟩ := (mem_derivedPlot_labels 10 s _ _).1 hq'
    have hkw : IsWord k := by
      simp only [derivedKeys, List.mem_cons, List.not_mem_nil, or_false] at hk
      rcases hk with rfl | rfl | rfl <;> exact ⟨by decide, by decide⟩
    constructor
    · rw [List.dropLast_append_of_ne_nil (digits_ne_nil n)]
      simp [hkw.1]
    · intro c hc
      rcases List.mem_append.1 (List.mem_of_mem_dropLast hc) with hc | hc
      · exact hkw.2 c hc
      · exact isSpace_of_isDigit c (digits_isDigit _ c hc)
  unfold tabDerived dataRows
  simp only [hwords]
  rw [show List.range 10 = 0 :: (List.range 9).map (· + 1) by decide, List.flatMap_cons, List.map_append, List.count_append]
  refine le_trans ?_ (Nat.le_add_right _ _)
  refine two_le_count _ _ "mpsini".toList "mpsini1".toList _ ?_ ?_ (by decide) ?_ ?_
  · rw [mem_setOf ho]; exact List.mem_map.2 ⟨_, m1, by decide⟩
  · rw [mem_setOf ho]; exact List.mem_map.2 ⟨_, m10, by decide⟩
  · have := dataRow_column (units.update (labels.map fun x => (x.1, x.2.text))) ((suffixList insts).map fun s => '_' :: s)
      { r with maxparams := r.maxparams ++ labels.map Prod.fst, labels := r.labels ++ labels.map Prod.fst } 1 "mpsini".toList hcol1
    rw [Nat.zero_add, this, if_pos ⟨List.mem_append_right _ m1, List.mem_append_right _ m1⟩]
    rfl
  · have := dataRow_extra (units.update (labels.map fun x => (x.1, x.2.text))) ((suffixList insts).map fun s => '_' :: s)
      { r with maxparams := r.maxparams ++ labels.map Prod.fst, labels := r.labels ++ labels.map Prod.fst } "mpsini1".toList (by simp only [hcols]; exact h11)
    rw [Nat.zero_add, this, if_pos ⟨hcol1, List.mem_append_right _ m1, List.mem_append_right _ m1⟩]
    rfl

/-! ## C115: units of derived masses -/

/-- C115 (missing: medians above 100 Jupiter masses, which stay in Jupiter masses, and a second table; false for those, next theorems): a mass with a median of at most 100 is left as it is, in Earth masses; with a larger
median every sample is converted to Jupiter masses (of 317.83 Earth masses) within 0.2 percent, and the unit says so. Other columns do not change. -/
theorem C115_units_partial (N n : Nat) (s : Samples) (h1 : 1 ≤ n) (h2 : n ≤ N) (col : List ℝ) (hcol : s.get? ("mpsini".toList ++ Nat.toDigits 10 n) = some (col.map some)) :
    (median col ≤ 100 → (derivedPlot N s).1.get? ("mpsini".toList ++ Nat.toDigits 10 n) = some (col.map some) ∧ ("mpsini".toList ++ Nat.toDigits 10 n, DerivedUnit.earth) ∈ (derivedPlot N s).2) ∧
    (100 < median col → ∃ c : ℝ, |c * 317.83 - 1| ≤ 0.002 ∧ (derivedPlot N s).1.get? ("mpsini".toList ++ Nat.toDigits 10 n) = some (col.map fun x => some (x * c)) ∧
      ("mpsini".toList ++ Nat.toDigits 10 n, DerivedUnit.jupiter) ∈ (derivedPlot N s).2) ∧
    ∀ q, (∀ m, q ≠ "mpsini".toList ++ Nat.toDigits 10 m) → (derivedPlot N s).1.get? q = s.get? q := by
  have hshown : shown s ("mpsini".toList ++ digits n) = true := by
    unfold shown
    rw [show s.get? ("mpsini".toList ++ digits n) = some (col.map some) from hcol]
    simp
  have hmed : colMedian ((s.get? ("mpsini".toList ++ digits n)).getD []) = median col := by
    rw [show s.get? ("mpsini".toList ++ digits n) = some (col.map some) from hcol]
    unfold colMedian
    simp [List.map_map, Function.comp_def]
  have hget : (derivedPlot N s).1.get? ("mpsini".toList ++ digits n) = some (col.map fun x => some (x * (massUnit (median col)).2)) := by
    unfold derivedPlot
    rw [derivedLoop_self _ _ (nodup_labels N) n "mpsini".toList ((mem_pairs _ _ _).2 ⟨h1, h2, by decide⟩), derivedStep_self, if_pos ⟨hshown, rfl⟩, hmed,
      show s.get? ("mpsini".toList ++ digits n) = some (col.map some) from hcol]
    simp [List.map_map, Function.comp_def]
  have hlab : ("mpsini".toList ++ digits n, (massUnit (median col)).1) ∈ (derivedPlot N s).2 := by
    rw [mem_derivedPlot_labels]
    exact ⟨n, "mpsini".toList, h1, h2, by decide, rfl, hshown, by rw [if_pos rfl, hmed]⟩
  refine ⟨?_, ?_, ?_⟩
  · intro hm
    have e : massUnit (median col) = (.earth, 1) := by unfold massUnit; rw [if_neg (not_lt.2 hm), if_neg (not_lt.2 hm)]
    rw [e] at hget hlab
    refine ⟨?_, hlab⟩
    rw [show Nat.toDigits 10 n = digits n from rfl, hget]
    simp
  · intro hm
    have e : massUnit (median col) = (.jupiter, 0.00315) := by unfold massUnit; rw [if_pos hm]
    rw [e] at hget hlab
    exact ⟨0.00315, by norm_num [abs_le], hget, hlab⟩
  · intro q hq
    unfold derivedPlot
    by_cases hx : ∃ m k, 1 ≤ m ∧ m ≤ N ∧ k ∈ derivedKeys ∧ q = k ++ digits m
    · obtain ⟨m, k, hm1, hm2, hk, rfl⟩ := hx
      rw [derivedLoop_self _ _ (nodup_labels N) m k ((mem_pairs _ _ _).2 ⟨hm1, hm2, hk⟩), derivedStep_self, if_neg]
      rintro ⟨_, rfl⟩
      exact hq m rfl
    · refine derivedLoop_other _ _ _ ?_
      rintro ⟨m, k⟩ hm he
      obtain ⟨a, b, c⟩ := (mem_pairs _ _ _).1 hm
      exact hx ⟨m, k, a, b, c, he⟩

/-- Non-vacuity: a mass of 1000 Earth masses. -/
example : (100 : ℝ) < median [1000] := by norm_num [median]

/-- C115 is false for large masses: no derived mass is ever shown in solar masses, however large. -/
theorem C115_sun_violated (N : Nat) (s : Samples) (q : Text) (u : DerivedUnit) (h : (q, u) ∈ (derivedPlot N s).2) : u ≠ .sun := by
  obtain ⟨n, k, _, _, _, _, _, rfl⟩ := (mem_derivedPlot_labels N s q u).1 h
  split_ifs
  · unfold massUnit
    split_ifs <;> simp
  · simp
  · simp

/-- C115 is false for a second table made from the same report: a mass with a median between 100 and 31746 Earth masses was converted to Jupiter masses by the first, and the second shows these numbers in Earth masses. -/
theorem C115_again_violated (N n : Nat) (s : Samples) (h1 : 1 ≤ n) (h2 : n ≤ N) (col : List ℝ) (hcol : s.get? ("mpsini".toList ++ Nat.toDigits 10 n) = some (col.map some))
    (hm : 100 < median col) (hm' : median col * 0.00315 ≤ 100) : ∃ col' : List ℝ, col' = col.map (fun x => x * 0.00315) ∧
      (derivedPlot N s).1.get? ("mpsini".toList ++ Nat.toDigits 10 n) = some (col'.map some) ∧ ("mpsini".toList ++ Nat.toDigits 10 n, DerivedUnit.jupiter) ∈ (derivedPlot N s).2 ∧
      (derivedPlot N (derivedPlot N s).1).1.get? ("mpsini".toList ++ Nat.toDigits 10 n) = some (col'.map some) ∧ ("mpsini".toList ++ Nat.toDigits 10 n, DerivedUnit.earth) ∈ (derivedPlot N (derivedPlot N s).1).2 := by
  have hshown : shown s ("mpsini".toList ++ digits n) = true := by
    unfold shown
    rw [show s.get? ("mpsini".toList ++ digits n) = some (col.map some) from hcol]
    simp
  have hmed : colMedian ((s.get? ("mpsini".toList ++ digits n)).getD []) = median col := by
    rw [show s.get? ("mpsini".toList ++ digits n) = some (col.map some) from hcol]
    unfold colMedian
    simp [List.map_map, Function.comp_def]
  have e : massUnit (median col) = (.jupiter, 0.00315) := by unfold massUnit; rw [if_pos hm]
  have hget : (derivedPlot N s).1.get? ("mpsini".toList ++ digits n) = some ((col.map (· * 0.00315)).map some) := by
    unfold derivedPlot
    rw [derivedLoop_self _ _ (nodup_labels N) n "mpsini".toList ((mem_pairs _ _ _).2 ⟨h1, h2, by decide⟩), derivedStep_self, if_pos ⟨hshown, rfl⟩, hmed, e,
      show s.get? ("mpsini".toList ++ digits n) = some (col.map some) from hcol]
    simp [List.map_map, Function.comp_def]
  obtain ⟨_, hj, _⟩ := C115_units_partial N n s h1 h2 col hcol
  obtain ⟨_, _, _, hlab⟩ := hj hm
  obtain ⟨hagain, _, _⟩ := C115_units_partial N n (derivedPlot N s).1 h1 h2 _ hget
  obtain ⟨g1, g2⟩ := hagain (by rw [median_scale _ _ (by norm_num)]; exact hm')
  exact ⟨_, rfl, hget, hlab, g1, g2⟩

end Radvel
