import Verif.Lemmas.Report
import Verif.Props.Basis

/-! # C110-C113, C116: the report's tables of parameters and velocities -/

namespace Radvel

/-! ## C110: every row shows its own parameter -/

/-- C110 for the orbital parameters (missing: samples without some of the columns): if every orbital parameter of every planet is a column of the samples, the rows show, planet by planet
and in the order of the basis, exactly the parameters for which there is a maximum and a label. -/
theorem C110_orbital_partial (units : Dict Text Text) (insts extra names : List Text) (r : ReportNames) (basis : Text) (N : Nat)
    (hcol : ∀ n, 1 ≤ n → n ≤ N → ∀ p ∈ ["per".toList, "tc".toList, "tp".toList, "e".toList, "w".toList, "k".toList], p ++ Nat.toDigits 10 n ∈ r.columns) :
    (tabParams units insts extra names r basis N).orbital.map TexRow.source =
      ((List.range N).flatMap fun i => ["per".toList, "tc".toList, "tp".toList, "e".toList, "w".toList, "k".toList].map fun p => p ++ Nat.toDigits 10 (i + 1)).filter
        fun q => decide (q ∈ r.maxparams ∧ q ∈ r.labels) := by
  simp only [tabParams, dataRows, splitWords_printBasis]
  rw [List.map_flatMap, List.filter_flatMap]
  refine List.flatMap_congr fun i hi => ?_
  refine filterMap_source _ (fun p => p ++ Nat.toDigits 10 (i + 1)) _ _ fun p hp => ?_
  have := dataRow_column units ((suffixList insts).map fun s => '_' :: s) r (i + 1) p (hcol (i + 1) (by omega) (by have := List.mem_range.1 hi; omega) p hp)
  rw [this]
  simp only [decide_eq_true_eq]
  unfold digits
  split_ifs <;> rfl

/-- C110 for the other parameters (missing: samples with a column whose name is that of another parameter followed by a 1; false for those, next theorem): the rows show exactly the listed parameters that are columns and
have a maximum and a label, in the order of the list. -/
theorem C110_other_partial (units : Dict Text Text) (insts extra names : List Text) (r : ReportNames) (basis : Text) (N : Nat) (hw : ∀ w ∈ extraWords extra names, IsWord w)
    (hcol : ∀ w ∈ extraWords extra names, w ++ ['1'] ∉ r.columns) :
    (tabParams units insts extra names r basis N).other.map TexRow.source =
      (extraWords extra names).filter fun q => decide (q ∈ r.columns ∧ q ∈ r.maxparams ∧ q ∈ r.labels) := by
  simp only [tabParams, dataRows, splitWords_joinWords _ hw]
  simp only [show List.range 1 = [0] from rfl, List.flatMap_cons, List.flatMap_nil, List.append_nil]
  have := filterMap_source (dataRow units ((suffixList insts).map fun s => '_' :: s) r (0 + 1)) id (fun q => decide (q ∈ r.columns ∧ q ∈ r.maxparams ∧ q ∈ r.labels)) (extraWords extra names) fun p hp => by
    rw [Nat.zero_add, dataRow_extra _ _ _ _ (by rw [digits_one]; exact hcol p hp)]
    simp only [id_eq, decide_eq_true_eq]
    split_ifs <;> rfl
  rw [List.map_id] at this
  exact this

example : (tabParams texUnits ["j".toList] ["gamma_j".toList, "jit_j".toList] [] ⟨["per1".toList, "tc1".toList, "tp1".toList, "e1".toList, "w1".toList, "k1".toList, "gamma_j".toList, "jit_j".toList],
    ["per1".toList, "k1".toList, "gamma_j".toList], ["per1".toList, "k1".toList, "gamma_j".toList, "jit_j".toList]⟩ printBasis 1).orbital.map TexRow.source = ["per1".toList, "k1".toList] := by
  rw [C110_orbital_partial]
  · decide +kernel
  · intro n h1 h2
    have : n = 1 := by omega
    subst this
    decide +kernel

/-- C110 is false: whatever the two instruments `s` and `s1` are called, the row made for the offset of `s` shows the numbers and the label of the offset of `s1`, though everything needed for the right row is there. -/
theorem C110_own_violated (s : Text) (units : Dict Text Text) (suf : List Text) (r : ReportNames) (h1 : "gamma_".toList ++ s ++ ['1'] ∈ r.columns) (h2 : "gamma_".toList ++ s ++ ['1'] ∈ r.maxparams)
    (h3 : "gamma_".toList ++ s ++ ['1'] ∈ r.labels) : ∃ unit, dataRow units suf r 1 ("gamma_".toList ++ s) = some ⟨"gamma_".toList ++ s ++ ['1'], unit⟩ := by
  have := dataRow_column units suf r 1 ("gamma_".toList ++ s) (by rw [digits_one]; exact h1)
  rw [digits_one, if_pos ⟨h2, h3⟩] at this
  exact ⟨_, this⟩

/-- The whole table for two such instruments: `gamma_j1` and `jit_j1` appear twice, `gamma_j` and `jit_j` not at all. -/
theorem C110_table_violated : (tabParams texUnits ["j".toList, "j1".toList] ["gamma_j".toList, "jit_j".toList, "gamma_j1".toList, "jit_j1".toList] []
    ⟨["gamma_j".toList, "jit_j".toList, "gamma_j1".toList, "jit_j1".toList], ["gamma_j".toList, "jit_j".toList, "gamma_j1".toList, "jit_j1".toList],
      ["gamma_j".toList, "jit_j".toList, "gamma_j1".toList, "jit_j1".toList]⟩ printBasis 1).other.map TexRow.source = ["gamma_j1".toList, "gamma_j1".toList, "jit_j1".toList, "jit_j1".toList] := by
  decide +kernel

/-! ## C111: every extra parameter exactly once -/

/-- C111 (missing: names that contain several of the words `gamma`, `dvdt`, `curv`, `jit`, or none, names with white space, and names that are another name followed by 1; false for those, next theorems and
`C110_own_violated`): every extra parameter that is a column and has a maximum and a label has exactly one row. -/
theorem C111_once_partial (units : Dict Text Text) (insts extra names : List Text) (r : ReportNames) (basis : Text) (N : Nat) (hnodup : extra.Nodup)
    (hw : ∀ p ∈ extra, IsWord p) (hn : ∀ p ∈ names, IsWord p) (hcol : ∀ q : Text, q ++ ['1'] ∈ r.columns → q ∉ extra ∧ q ∉ names ∧ q ∉ ["gamma".toList, "dvdt".toList, "curv".toList, "jit".toList])
    (p : Text) (hp : p ∈ extra) (hgp : ¬ "gp_".toList <+: p) (o : Text) (ho : o ∈ ["gamma".toList, "dvdt".toList, "curv".toList, "jit".toList]) (hop : o <:+: p)
    (huniq : ∀ o' ∈ ["gamma".toList, "dvdt".toList, "curv".toList, "jit".toList], o' <:+: p → o' = o) (h1 : p ∈ r.columns) (h2 : p ∈ r.maxparams) (h3 : p ∈ r.labels) :
    ((tabParams units insts extra names r basis N).other.map TexRow.source).count p = 1 := by
  have hmem : ∀ w ∈ extraWords extra names, w ∈ extra ∨ w ∈ ["gamma".toList, "dvdt".toList, "curv".toList, "jit".toList] ∨ w ∈ names := by
    intro w hw
    unfold extraWords at hw
    rcases List.mem_append.1 hw with hw | hw
    · obtain ⟨o, ho, hw⟩ := List.mem_flatMap.1 hw
      rcases mem_orderGroup _ _ _ hw with ⟨h, _⟩ | ⟨h, _⟩
      · exact Or.inl h
      · subst h; exact Or.inr (Or.inl ho)
    · exact Or.inr (Or.inr (List.mem_filter.1 hw).1)
  rw [C110_other_partial]
  · rw [List.count_filter (by simp [h1, h2, h3])]
    unfold extraWords
    rw [List.count_append]
    have hz : (names.filter fun p => "gp_".toList.isPrefixOf p).count p = 0 := by
      rw [List.count_eq_zero, List.mem_filter, List.isPrefixOf_iff_prefix]
      exact fun h => hgp h.2
    have hone : extra.count p = 1 := List.count_eq_one_of_mem hnodup hp
    rw [hz]
    simp only [paramOrder, List.flatMap_cons, List.flatMap_nil, List.count_append, count_orderGroup _ _ _ hp, hone, List.count_nil]
    have hi : ∀ o' ∈ ["gamma".toList, "dvdt".toList, "curv".toList, "jit".toList], (isInfix o' p = true ↔ o' = o) := by
      intro o' ho'
      rw [isInfix_iff]
      exact ⟨huniq o' ho', fun h => h ▸ hop⟩
    have e1 := hi "gamma".toList (by simp)
    have e2 := hi "dvdt".toList (by simp)
    have e3 := hi "curv".toList (by simp)
    have e4 := hi "jit".toList (by simp)
    simp only [e1, e2, e3, e4]
    simp only [List.mem_cons, List.not_mem_nil, or_false] at ho
    rcases ho with rfl | rfl | rfl | rfl <;> decide
  · intro w hw'
    rcases hmem w hw' with h | h | h
    · exact hw w h
    · simp only [List.mem_cons, List.not_mem_nil, or_false] at h
      rcases h with rfl | rfl | rfl | rfl <;> exact ⟨by decide, by decide⟩
    · exact hn w h
  · intro w hw' hc
    obtain ⟨a, b, c⟩ := hcol w hc
    rcases hmem w hw' with h | h | h
    · exact a h
    · exact c h
    · exact b h

/-- Two instruments, with a trend. -/
example : ((tabParams texUnits ["j".toList, "k".toList] ["jit_k".toList, "gamma_j".toList, "jit_j".toList, "gamma_k".toList] [] ⟨["gamma_j".toList, "jit_j".toList, "gamma_k".toList, "jit_k".toList, "dvdt".toList],
    ["gamma_j".toList, "jit_j".toList], ["gamma_j".toList, "jit_j".toList]⟩ printBasis 1).other.map TexRow.source).count "gamma_j".toList = 1 :=
  C111_once_partial _ _ _ _ _ _ _ (by decide) (by unfold IsWord; decide) (by simp)
    (by
      intro q hq
      simp only [List.mem_cons, List.not_mem_nil, or_false] at hq
      exfalso
      have hl := fun (a : Text) (h : q ++ ['1'] = a) => congrArg List.getLast? h
      rcases hq with h | h | h | h | h <;> (have := hl _ h; simp at this))
    _ (by decide) (by decide) "gamma".toList (by decide) (by decide) (by decide) (by decide) (by decide) (by decide)

/-- C111 is false: the offset of every instrument whose name contains `jit`, `dvdt` or `curv` is listed twice. -/
theorem C111_twice_violated (s o : Text) (extra names : List Text) (hnodup : extra.Nodup) (hp : "gamma_".toList ++ s ∈ extra) (ho : o ∈ ["dvdt".toList, "curv".toList, "jit".toList]) (hos : o <:+: s) :
    2 ≤ (extraWords extra names).count ("gamma_".toList ++ s) := by
  unfold extraWords
  rw [List.count_append]
  have hone : extra.count ("gamma_".toList ++ s) = 1 := List.count_eq_one_of_mem hnodup hp
  simp only [paramOrder, List.flatMap_cons, List.flatMap_nil, List.count_append, count_orderGroup _ _ _ hp, hone, List.count_nil]
  have hg : isInfix "gamma".toList ("gamma_".toList ++ s) = true := (isInfix_iff _ _).2 ⟨[], '_' :: s, rfl⟩
  have ho' : isInfix o ("gamma_".toList ++ s) = true := (isInfix_iff _ _).2 (hos.trans ⟨"gamma_".toList, [], by simp⟩)
  rw [hg, if_pos rfl]
  simp only [List.mem_cons, List.not_mem_nil, or_false] at ho
  rcases ho with rfl | rfl | rfl <;> rw [ho', if_pos rfl] <;> omega

example : 2 ≤ (extraWords ["gamma_jitte".toList, "jit_jitte".toList] []).count "gamma_jitte".toList :=
  C111_twice_violated "jitte".toList "jit".toList _ _ (by decide) (by decide) (by decide) (by decide)

/-- C111 is false: one instrument whose name contains `curv` makes the row of the curvature itself disappear (and likewise for `dvdt`), although the curvature is a parameter of the model. -/
theorem C111_dropped_violated (o p : Text) (ho : o ∈ ["dvdt".toList, "curv".toList]) (extra names : List Text) (hp : p ∈ extra) (hop : o <:+: p) (hne : o ∉ extra) : o ∉ extraWords extra names := by
  intro h
  unfold extraWords at h
  rcases List.mem_append.1 h with h | h
  · obtain ⟨o', ho', hw⟩ := List.mem_flatMap.1 h
    rcases mem_orderGroup _ _ _ hw with ⟨h', _⟩ | ⟨h', hnone⟩
    · exact hne h'
    · subst h'
      have := hnone p hp
      rw [(isInfix_iff _ _).2 hop] at this
      exact absurd this (by decide)
  · have := (List.mem_filter.1 h).2
    simp only [List.mem_cons, List.not_mem_nil, or_false] at ho
    rcases ho with rfl | rfl <;> exact absurd this (by decide)

example : "curv".toList ∉ extraWords ["gamma_curvy".toList, "jit_curvy".toList] [] := C111_dropped_violated _ "gamma_curvy".toList (by decide) _ _ (by decide) (by decide) (by decide)

/-- The rows come from words: no row shows a parameter whose name contains white space. -/
theorem no_space_source (units : Dict Text Text) (insts : List Text) (r : ReportNames) (basis : Text) (N : Nat) (row : TexRow) (h : row ∈ dataRows units insts r basis N) (c : Char) (hc : c ∈ row.source) :
    isSpace c = false := by
  obtain ⟨i, _, h⟩ := List.mem_flatMap.1 h
  obtain ⟨p, hp, h⟩ := List.mem_filterMap.1 h
  have hw := (isWord_of_mem_splitWords _ _ hp).2
  have hall : ∀ c ∈ p ++ digits (i + 1), isSpace c = false := by
    intro c hc
    rcases List.mem_append.1 hc with hc | hc
    · exact hw c hc
    · exact isSpace_of_isDigit c (digits_isDigit _ c hc)
  have hsrc : row.source = rowName r (p ++ digits (i + 1)) := by
    unfold dataRow texRow at h
    simp only at h
    split_ifs at h
    exact (Option.some.inj h) ▸ rfl
  rw [hsrc] at hc
  unfold rowName at hc
  split_ifs at hc
  · exact hall c hc
  · exact hall c (List.mem_of_mem_dropLast hc)

/-- C111 is false: an instrument whose name contains white space has no rows for its offset and jitter. -/
theorem C111_space_violated (p : Text) (c : Char) (hc : c ∈ p) (hs : isSpace c = true) (units : Dict Text Text) (insts extra names : List Text) (r : ReportNames) (basis : Text) (N : Nat) :
    p ∉ (tabParams units insts extra names r basis N).other.map TexRow.source := by
  intro h
  obtain ⟨row, hrow, rfl⟩ := List.mem_map.1 h
  have := no_space_source _ _ _ _ _ row hrow c hc
  rw [hs] at this
  cases this

/-- Non-vacuity of `C111_space_violated`: the offset of an instrument called `my tel`. -/
example : ' ' ∈ "gamma_my tel".toList ∧ isSpace ' ' = true := by decide

/-! ## C112: every fitted parameter is in the table -/

/-- C112 is false for every fit: whatever the fitted basis, the report converts the parameters, and the rows of its table headed as the parameters of the fit are the rows of the orbital parameters once more. -/
theorem C112_basis_violated (dflt : ℝ) (p : Params ℝ) (h : Complete p) : ∃ q, reportConvert dflt p = .ok q ∧
    ∀ (units : Dict Text Text) (insts extra names : List Text) (r : ReportNames) (N : Nat),
      (tabParams units insts extra names r (tableBasis q) N).fitting = (tabParams units insts extra names r (tableBasis q) N).orbital := by
  obtain ⟨q1, a1, a3, a4, a5, _⟩ := toSynth_values dflt true p h
  obtain ⟨q1', b1, _, b3, b4, _⟩ := toSynth_spec dflt true p _ h.hasVals
  have : q1' = q1 := by rw [a1] at b1; injection b1 with b1; exact b1.symm
  subst this
  obtain ⟨q, c1, c2, c3, _⟩ := fromSynth_spec dflt .perTcTpEWK true q1' _ a5.hasVals b3 b4
  refine ⟨q, ?_, ?_⟩
  · unfold reportConvert
    rw [a1]
    exact c1
  · intro units insts extra names r N
    have : tableBasis q = printBasis := by unfold tableBasis; rw [c3]; rfl
    rw [this]
    rfl

/-- The first character of what a planet's row shows is that of a print-basis parameter. -/
theorem orbital_head (units : Dict Text Text) (insts : List Text) (r : ReportNames) (N : Nat) (row : TexRow) (h : row ∈ dataRows units insts r printBasis N) :
    row.source.head? ∈ [some 'p', some 't', some 'e', some 'w', some 'k'] := by
  obtain ⟨i, _, h⟩ := List.mem_flatMap.1 h
  obtain ⟨p, hp, h⟩ := List.mem_filterMap.1 h
  have hsrc : row.source = rowName r (p ++ digits (i + 1)) := by
    unfold dataRow texRow at h
    simp only at h
    split_ifs at h
    exact (Option.some.inj h) ▸ rfl
  have hd : ∃ d, ∃ ds, digits (i + 1) = d :: ds := List.exists_cons_of_ne_nil (digits_ne_nil _)
  obtain ⟨d, ds, hd⟩ := hd
  rw [splitWords_printBasis] at hp
  rw [hsrc, hd]
  unfold rowName
  simp only [List.mem_cons, List.not_mem_nil, or_false] at hp
  split_ifs
  · rcases hp with rfl | rfl | rfl | rfl | rfl | rfl <;> simp
  · rcases hp with rfl | rfl | rfl | rfl | rfl | rfl <;> simp [List.dropLast]

/-- C112 is false for a fit in `per tc secosw sesinw k`: `secosw` and `sesinw` of no planet have a row for planets, though their samples, maxima and labels may all be there. -/
theorem C112_secosw_violated (dflt : ℝ) (p : Params ℝ) (h : Complete p) (_hb : p.basis = .perTcSecoswSesinwK) : ∃ q, reportConvert dflt p = .ok q ∧
    ∀ (units : Dict Text Text) (insts extra names : List Text) (r : ReportNames) (N n : Nat) (x : Text), x ∈ ["secosw".toList, "sesinw".toList] →
      x ++ Nat.toDigits 10 n ∉ (tabParams units insts extra names r (tableBasis q) N).fitting.map TexRow.source ∧
      x ++ Nat.toDigits 10 n ∉ (tabParams units insts extra names r (tableBasis q) N).orbital.map TexRow.source := by
  obtain ⟨q, hq, hrows⟩ := C112_basis_violated dflt p h
  refine ⟨q, hq, ?_⟩
  intro units insts extra names r N n x hx
  rw [hrows]
  have key : x ++ Nat.toDigits 10 n ∉ (dataRows units insts r printBasis N).map TexRow.source := by
    intro h
    obtain ⟨row, hrow, he⟩ := List.mem_map.1 h
    have := orbital_head _ _ _ _ row hrow
    rw [he] at this
    simp only [List.mem_cons, List.not_mem_nil, or_false] at hx
    rcases hx with rfl | rfl <;> simp at this
  exact ⟨key, key⟩

example : Complete (Params.init (0 : ℝ) 2 .perTcSecoswSesinwK none) := (UserParams.new 0 2 _ none (by decide)).good.complete

/-- Everything in a row was looked up. -/
theorem source_mem (units : Dict Text Text) (insts : List Text) (r : ReportNames) (basis : Text) (N : Nat) (row : TexRow) (h : row ∈ dataRows units insts r basis N) :
    row.source ∈ r.columns ∧ row.source ∈ r.maxparams ∧ row.source ∈ r.labels := by
  obtain ⟨i, _, h⟩ := List.mem_flatMap.1 h
  obtain ⟨p, hp, h⟩ := List.mem_filterMap.1 h
  unfold dataRow texRow at h
  simp only at h
  split_ifs at h with hc
  exact (Option.some.inj h) ▸ hc

/-- C112 is false for a fit in `per tp e w k`: the maxima are kept for the parameters of the fit only (`maxKeys`), so the time of conjunction of no planet has a row, though the report has samples and a label of it. -/
theorem C112_tc_violated (dflt : ℝ) (p : Params ℝ) (h : Complete p) (hb : p.basis = .perTpEWK) (n : Nat) (hno : ∀ key ∈ p.items.keys, key.render ≠ "tc".toList ++ Nat.toDigits 10 n) :
    ∃ keys, maxKeys dflt p = .ok keys ∧ ∀ (units : Dict Text Text) (insts extra names : List Text) (r : ReportNames) (basis : Text) (N : Nat), r.maxparams = keys →
      "tc".toList ++ Nat.toDigits 10 n ∉ (tabParams units insts extra names r basis N).orbital.map TexRow.source := by
  obtain ⟨q, a1, _, _, _, a5, _, a7, a8⟩ := toSynth_spec dflt true p _ h.hasVals
  have hsub : ∀ key ∈ q.items.keys, key ∈ p.items.keys := by
    intro key hk
    obtain ⟨v, hv⟩ := Dict.exists_get?_of_mem _ hk
    by_cases hpl : ∃ x m, IsPlanet p m ∧ key = .orb x m
    · obtain ⟨x, m, hm, rfl⟩ := hpl
      by_cases hx : x ∈ BasisName.words .perTpEWK
      · rw [← hb] at hx
        exact h.2 x hx m hm
      · rw [a7 x m hm.1 hm.2, if_neg hx] at hv
        exact Dict.mem_keys_of_get? _ hv
    · rw [a8 key fun x m h1 h2 he => hpl ⟨x, m, ⟨h1, h2⟩, he⟩] at hv
      exact Dict.mem_keys_of_get? _ hv
  refine ⟨q.items.keys.map Key.render, ?_, ?_⟩
  · unfold maxKeys
    rw [a1]
    rfl
  · intro units insts extra names r basis N hr hm
    obtain ⟨row, hrow, he⟩ := List.mem_map.1 hm
    have := (source_mem _ _ _ _ _ row hrow).2.1
    rw [he, hr] at this
    obtain ⟨key, hk, hk'⟩ := List.mem_map.1 this
    exact hno key (hsub key hk) hk'

/-- Non-vacuity of `C112_tc_violated`: two planets. -/
example : Complete (Params.init (0 : ℝ) 2 .perTpEWK none) ∧ (Params.init (0 : ℝ) 2 .perTpEWK none).basis = .perTpEWK ∧
    ∀ key ∈ (Params.init (0 : ℝ) 2 .perTpEWK none).items.keys, key.render ≠ "tc".toList ++ Nat.toDigits 10 1 :=
  ⟨(UserParams.new 0 2 _ none (by decide)).good.complete, rfl, by
    rw [show (Params.init (0 : ℝ) 2 .perTpEWK none).items.keys = (Params.init (0 : Nat) 2 .perTpEWK none).items.keys from rfl]
    decide +kernel⟩

/-- C112 is false for decorrelation coefficients: a name that contains none of `gamma`, `dvdt`, `curv`, `jit` and does not begin with `gp_` is not in the list of other parameters, even if it is an extra parameter of the
likelihood. -/
theorem C112_decorr_violated (p : Text) (extra names : List Text) (h : ∀ o ∈ ["gamma".toList, "dvdt".toList, "curv".toList, "jit".toList], ¬ o <:+: p) (hgp : ¬ "gp_".toList <+: p) : p ∉ extraWords extra names := by
  intro hm
  unfold extraWords at hm
  rcases List.mem_append.1 hm with hm | hm
  · obtain ⟨o, ho, hm⟩ := List.mem_flatMap.1 hm
    rcases mem_orderGroup _ _ _ hm with ⟨_, h'⟩ | ⟨h', _⟩
    · exact h o ho ((isInfix_iff _ _).1 h')
    · subst h'; exact h p ho (List.infix_refl _)
  · exact hgp (List.isPrefixOf_iff_prefix.1 (List.mem_filter.1 hm).2)

example : "c1_shk_j".toList ∉ extraWords ["gamma_j".toList, "jit_j".toList, "c1_shk_j".toList] ["gp_amp".toList] := C112_decorr_violated _ _ _ (by decide) (by decide)

/-- C112 for the remaining ones (missing: the parameters of the theorems above): the trend, the curvature and every Gaussian-process parameter are listed, the first two unless an extra parameter's name contains theirs. -/
theorem C112_listed_partial (extra names : List Text) (p : Text)
    (h : (p ∈ ["dvdt".toList, "curv".toList] ∧ ∀ q ∈ extra, ¬ p <:+: q) ∨ (p ∈ names ∧ "gp_".toList <+: p) ∨ (p ∈ extra ∧ ("gamma".toList <:+: p ∨ "jit".toList <:+: p))) :
    p ∈ extraWords extra names := by
  unfold extraWords
  have hgroup : ∀ o, p ∈ extra → o <:+: p → p ∈ orderGroup extra o := by
    intro o hp ho
    have : 0 < (orderGroup extra o).count p := by
      rw [count_orderGroup _ _ _ hp, if_pos ((isInfix_iff _ _).2 ho)]
      exact List.count_pos_iff.2 hp
    exact List.count_pos_iff.1 this
  rcases h with ⟨ho, h⟩ | ⟨hn, hg⟩ | ⟨he, h⟩
  · refine List.mem_append_left _ (List.mem_flatMap.2 ⟨p, ?_, ?_⟩)
    · unfold paramOrder
      simp only [List.mem_cons, List.not_mem_nil, or_false] at ho ⊢
      rcases ho with rfl | rfl <;> simp
    · unfold orderGroup
      have : (extra.filter fun q => isInfix p q) = [] := by
        rw [List.filter_eq_nil_iff]
        intro q hq hi
        exact h q hq ((isInfix_iff _ _).1 hi)
      simp [this]
  · exact List.mem_append_right _ (List.mem_filter.2 ⟨hn, List.isPrefixOf_iff_prefix.2 hg⟩)
  · refine List.mem_append_left _ (List.mem_flatMap.2 ?_)
    rcases h with h | h
    · exact ⟨_, by simp [paramOrder], hgroup _ he h⟩
    · exact ⟨_, by simp [paramOrder], hgroup _ he h⟩

example : "gp_amp".toList ∈ extraWords ["gamma_j".toList] ["gp_amp".toList] ∧ "curv".toList ∈ extraWords ["gamma_j".toList] [] ∧ "gamma_j".toList ∈ extraWords ["gamma_j".toList] [] :=
  ⟨C112_listed_partial _ _ _ (by decide), C112_listed_partial _ _ _ (by decide), C112_listed_partial _ _ _ (by decide)⟩

/-! ## C113: units -/

/-- C113, planets: a parameter whose name has a unit that is not blank is shown with it. -/
theorem C113_direct (units : Dict Text Text) (suf : List Text) (p par u : Text) (h : units.get? p = some u) (hu : u ≠ []) : rowUnit units suf p par = u := by
  have : unitGet units p = u := by simp [unitGet, h]
  unfold rowUnit
  simp [this, hu]

/-- C113, instruments (missing: instruments one of whose names begins with the other, and a single instrument; false for those, next theorems): the offset or jitter of an instrument has the unit of `gamma` or `jit`, if no other instrument's
name follows an underscore in it. -/
theorem C113_suffix_partial (units : Dict Text Text) (insts : List Text) (base inst u : Text) (n : Text) (hu : units.get? base = some u) (hne : u ≠ []) (hb : '_' ∉ base) (hi : inst ∈ insts) (h2 : 2 ≤ insts.length)
    (hp : units.get? (base ++ '_' :: inst) = none) (hpar : units.get? (base ++ '_' :: inst ++ n) = none) (hother : ∀ s ∈ insts, '_' :: s <:+: base ++ '_' :: inst → s = inst) :
    rowUnit units ((suffixList insts).map fun s => '_' :: s) (base ++ '_' :: inst) (base ++ '_' :: inst ++ n) = u := by
  have hsl : suffixList insts = insts := by
    rcases insts with _ | ⟨a, _ | ⟨b, t⟩⟩
    · rfl
    · simp at h2
    · rfl
  rw [hsl]
  have h1 : unitGet units (base ++ '_' :: inst) = [] := by simp [unitGet, hp]
  have h2' : units.has (base ++ '_' :: inst ++ n) = false := by simp only [Dict.has, hpar]; rfl
  have h3 : suffixUnit units (insts.map fun s => '_' :: s) (base ++ '_' :: inst) = u := by
    have hf : (insts.map fun s => '_' :: s).find? (fun s => isInfix s (base ++ '_' :: inst)) = some ('_' :: inst) := by
      rcases hf : (insts.map fun s => '_' :: s).find? (fun s => isInfix s (base ++ '_' :: inst)) with _ | s
      · have := List.find?_eq_none.1 hf ('_' :: inst) (List.mem_map.2 ⟨inst, hi, rfl⟩)
        exact absurd ((isInfix_iff _ _).2 ⟨base, [], by simp⟩) this
      · obtain ⟨s', hs', rfl⟩ := List.mem_map.1 (List.mem_of_find?_eq_some hf)
        have := hother s' hs' ((isInfix_iff _ _).1 (by simpa using List.find?_some hf))
        rw [this]
    unfold suffixUnit
    rw [hf]
    simp only
    rw [removeAll_suffix base inst hb, unitGet, hu]
    rfl
  unfold rowUnit
  rw [h1, h2', h3]
  simp [hne]

example : rowUnit texUnits ((suffixList ["j".toList, "k".toList]).map fun s => '_' :: s) "jit_k".toList "jit_k1".toList = "$\\rm m\\ s^{-1}$".toList :=
  C113_suffix_partial texUnits ["j".toList, "k".toList] "jit".toList "k".toList _ "1".toList (by decide) (by decide) (by decide) (by decide) (by decide) (by decide) (by decide) (by decide)

/-- C113 is false: with instruments `h` and `hires`, in this order, the offset and jitter of `hires` have no unit. -/
theorem C113_prefix_violated : (tabParams texUnits ["h".toList, "hires".toList] ["gamma_hires".toList, "jit_hires".toList] [] ⟨["gamma_hires".toList, "jit_hires".toList], ["gamma_hires".toList, "jit_hires".toList],
    ["gamma_hires".toList, "jit_hires".toList]⟩ printBasis 1).other = [⟨"gamma_hires".toList, []⟩, ⟨"jit_hires".toList, []⟩] := by
  decide +kernel

theorem removeAux_none (c : Char) (r : Text) (h : '_' ∉ r) : removeAux ['_', c] 0 r = r := by
  induction r with
  | nil => rfl
  | cons x t ih =>
    have hx : '_' ≠ x := by rintro rfl; exact h (List.mem_cons_self ..)
    rw [removeAux, if_neg, ih (fun hm => h (List.mem_cons_of_mem _ hm))]
    rw [List.isPrefixOf_iff_prefix, List.cons_prefix_cons]
    exact fun hh => hx hh.1

theorem removeAll_char (base : Text) (c : Char) (r : Text) (hb : '_' ∉ base) (hr : '_' ∉ r) : removeAll ['_', c] (base ++ '_' :: c :: r) = base ++ r := by
  unfold removeAll
  induction base with
  | nil =>
    rw [List.nil_append, removeAux, if_pos (by rw [List.isPrefixOf_iff_prefix]; exact ⟨r, rfl⟩)]
    have := removeAux_skip ['_', c] [c] r
    simp only [List.length_cons, List.length_nil] at this ⊢
    rw [List.nil_append]
    exact this.trans (removeAux_none c r hr)
  | cons x b ih =>
    have hc : '_' ≠ x := by rintro rfl; exact hb (List.mem_cons_self ..)
    rw [List.cons_append, removeAux, if_neg, ih (fun h => hb (List.mem_cons_of_mem _ h))]
    · rfl
    · rw [List.isPrefixOf_iff_prefix, List.cons_prefix_cons]
      exact fun h => hc h.1

theorem texUnits_gamma (r : Text) (h : r ≠ []) : unitGet texUnits ("gamma".toList ++ r) = [] := by
  have hk : ∀ k ∈ Dict.keys texUnits, "gamma".toList <+: k → k = "gamma".toList := by decide +kernel
  unfold unitGet
  rw [(Dict.get?_eq_none_iff _ _).2]
  · rfl
  · intro hm
    have := hk _ hm (List.prefix_append _ _)
    apply h
    simpa using this

/-- C113 is false for a data set with one instrument whose name has more than one character: the offset has no unit, because the loop over the instruments runs over the characters of the only name. -/
theorem C113_single_violated (c : Char) (r n : Text) (hr : '_' ∉ r) (hne : r ≠ []) :
    rowUnit texUnits ((suffixList [c :: r]).map fun s => '_' :: s) ("gamma".toList ++ '_' :: c :: r) ("gamma".toList ++ '_' :: c :: r ++ n) = [] := by
  have h1 : unitGet texUnits ("gamma".toList ++ '_' :: c :: r) = [] := texUnits_gamma _ (by simp)
  have h2 : unitGet texUnits ("gamma".toList ++ '_' :: c :: r ++ n) = [] := by rw [List.append_assoc]; exact texUnits_gamma _ (by simp)
  have h3 : suffixUnit texUnits ((suffixList [c :: r]).map fun s => '_' :: s) ("gamma".toList ++ '_' :: c :: r) = [] := by
    unfold suffixUnit
    have : ((suffixList [c :: r]).map fun s => '_' :: s).find? (fun s => isInfix s ("gamma".toList ++ '_' :: c :: r)) = some ['_', c] := by
      show (['_', c] :: (r.map fun c => [c]).map fun s => '_' :: s).find? _ = _
      rw [List.find?_cons_of_pos]
      rw [isInfix_iff]
      exact ⟨"gamma".toList, r, by simp⟩
    rw [this]
    simp only
    rw [removeAll_char _ c r (by decide) hr]
    exact texUnits_gamma r hne
  unfold rowUnit
  rw [h1, h2, h3]
  simp

/-- Non-vacuity: the table for a posterior with the only instrument `hires`. -/
example : (tabParams texUnits ["hires".toList] ["gamma_hires".toList] [] ⟨["gamma_hires".toList], ["gamma_hires".toList], ["gamma_hires".toList]⟩ printBasis 1).other = [⟨"gamma_hires".toList, []⟩] := by
  decide +kernel

/-! ## C116: the table of velocities -/

/-- C116: without a limit all observations are listed, with a limit the first ones, in order and unchanged. -/
theorem C116_rows (data : List RvRow) : (tabRv data none).1 = data ∧ (tabRv data none).2 = none ∧
    ∀ m, ((tabRv data (some m)).1.length = min m data.length) ∧ (tabRv data (some m)).1 <+: data :=
  ⟨rfl, rfl, fun m => ⟨List.length_take, List.take_prefix m data⟩⟩

/-- C116, the note (missing: fewer observations than lines; false then, next theorem): with at least as many observations as lines the two numbers are the number of rows and the number of observations. -/
theorem C116_note_partial (data : List RvRow) (m : Nat) (h : m ≤ data.length) : (tabRv data (some m)).2 = some ((tabRv data (some m)).1.length, data.length) := by
  simp [tabRv, List.length_take, h]

/-- Non-vacuity of `C116_note_partial`. -/
example : (tabRv [⟨0, 1, 2, "j".toList⟩, ⟨1, 3, 2, "k".toList⟩] (some 1)).2 = some (1, 2) := C116_note_partial _ 1 (by decide)

/-- C116 is false for every shorter data set: the note claims more rows than there are observations. -/
theorem C116_note_violated (data : List RvRow) (m : Nat) (h : data.length < m) : ∃ k, (tabRv data (some m)).2 = some (k, data.length) ∧ data.length < k ∧ (tabRv data (some m)).1.length = data.length :=
  ⟨m, rfl, h, by simp [tabRv, List.length_take, h.le]⟩

example : ∃ k, (tabRv [⟨0, 1, 2, "j".toList⟩] (some 50)).2 = some (k, 1) ∧ 1 < k ∧ (tabRv [⟨0, 1, 2, "j".toList⟩] (some 50)).1.length = 1 := C116_note_violated _ 50 (by decide)

/-- C116, names of instruments (missing: names with two or more underscores; false for those, next theorem): braces and dollar signs of a name with at most one underscore are paired. -/
theorem C116_braces_partial (inst : Text) (h1 : '{' ∉ inst) (h2 : '}' ∉ inst) (h3 : '$' ∉ inst) (hu : inst.count '_' ≤ 1) :
    (texInst inst).count '{' = (texInst inst).count '}' ∧ 2 ∣ (texInst inst).count '$' := by
  unfold texInst
  split_ifs with h
  · have hc : inst.count '_' = 1 := le_antisymm hu (List.count_pos_iff.2 h)
    rw [List.count_append, List.count_append, List.count_append, count_subscripts _ _ h1, count_subscripts _ _ h2, count_subscripts _ _ h3, hc]
    decide
  · rw [List.count_eq_zero.2 h1, List.count_eq_zero.2 h2, List.count_eq_zero.2 h3]
    exact ⟨rfl, dvd_zero _⟩

example : texInst "apf_new".toList = "apf$_{\\rm new}$".toList := by decide

/-- C116 is false for every name with two or more underscores: there are more opening than closing braces, so the table is not valid LaTeX. -/
theorem C116_braces_violated (inst : Text) (h1 : '{' ∉ inst) (h2 : '}' ∉ inst) (hu : 2 ≤ inst.count '_') : (texInst inst).count '}' < (texInst inst).count '{' := by
  have h : '_' ∈ inst := List.count_pos_iff.1 (by omega)
  unfold texInst
  rw [if_pos h, List.count_append, List.count_append, count_subscripts _ _ h1, count_subscripts _ _ h2]
  have a : "$_{\\rm ".toList.count '}' = 0 := by decide
  have b : "$_{\\rm ".toList.count '{' = 1 := by decide
  have c : "}$".toList.count '}' = 1 := by decide
  have d : "}$".toList.count '{' = 0 := by decide
  rw [a, b, c, d, if_neg (by decide), if_neg (by decide)]
  omega

example : texInst "hires_rj_old".toList = "hires$_{\\rm rj$_{\\rm old}$".toList := by decide

end Radvel
