import Verif.Lemmas.Annotate
import Verif.Spec.Annotate

/-! # C165: the numbers written into the phase panels -/

namespace Radvel

theorem render_ne_nil (p : PName) (n : Nat) : (Key.orb p n).render ≠ [] := by
  intro h
  cases p <;> cases h

/-- The label of an orbital parameter in a panel. -/
theorem panel_label {params : Params ℝ} {labels : Dict Text Text} (hl : params.texLabels = .ok labels) {n : Nat} (h1 : 1 ≤ n) (h9 : n ≤ 9) {letter : Text} (hlet : letterOf params.letters n = some letter)
    (hd : '$' ∉ letter) {p : PName} (hp : p ∈ [PName.per, PName.k, PName.e]) (hk : Key.orb p n ∈ params.items.keys) :
    noDollar ((labels.get? (Key.orb p n).render).getD (Key.orb p n).render) = p.symbol.toList ++ "_{".toList ++ letter ++ "}".toList := by
  obtain ⟨h, _⟩ := texLabels_get _ _ _ hl
  obtain ⟨l, hl', hg⟩ := h _ (List.mem_map_of_mem hk)
  have ht : texLabel params.letters (Key.orb p n).render = some (.ok ("$".toList ++ p.symbol.toList ++ "_{".toList ++ letter ++ "}$".toList)) := by
    rcases hlt : params.letters with _ | d
    · rw [hlt] at hlet
      cases hlet
      exact C09_label_partial p n h1 h9
    · rw [hlt] at hlet
      unfold letterOf at hlet
      simp only [Option.map_eq_some_iff] at hlet
      obtain ⟨s, hs, rfl⟩ := hlet
      exact C09_custom_letters_partial p n h1 h9 d s hs
  unfold labelOf at hl'
  rw [if_neg (render_ne_nil p n), ht] at hl'
  cases hl'
  rw [hg, Option.getD_some]
  have hfl : letter.filter (fun x => decide (x ≠ '$')) = letter := by
    rw [List.filter_eq_self]
    intro c hc
    simp only [decide_eq_true_eq]
    rintro rfl
    exact hd hc
  unfold noDollar
  simp only [List.filter_append, hfl]
  simp only [List.mem_cons, List.not_mem_nil, or_false] at hp
  rcases hp with rfl | rfl | rfl <;> rfl

/-- The three lines of the orbit, given their numbers. -/
theorem phaseText_orbit {params : Params ℝ} {labels : Dict Text Text} (hl : params.texLabels = .ok labels) {n : Nat} (h1 : 1 ≤ n) (h9 : n ≤ 9) {letter : Text} (hlet : letterOf params.letters n = some letter)
    (hd : '$' ∉ letter) (fuel : Nat) (u m : Option (Dict Key ℝ)) (chains : Option Samples) (nums : PName → AnoNums)
    (h : ∀ p ∈ [PName.per, PName.k, PName.e], ∀ unit, orbitLine fuel params labels u m n (p, unit) = .ok (some ⟨noDollar ((labels.get? (Key.orb p n).render).getD (Key.orb p n).render), nums p, unit⟩))
    (hk : ∀ p ∈ [PName.per, PName.k, PName.e], Key.orb p n ∈ params.items.keys) :
    phaseText fuel params u m none chains n = .ok [some ⟨"P_{".toList ++ letter ++ "}".toList, nums .per, "days".toList⟩,
      some ⟨"K_{".toList ++ letter ++ "}".toList, nums .k, "m s$^{\\mathregular{-1}}$".toList⟩, some ⟨"e_{".toList ++ letter ++ "}".toList, nums .e, []⟩] := by
  unfold phaseText
  rw [hl]
  simp only [printParams, List.mapM_cons, List.mapM_nil]
  rw [h .per (by simp), h .k (by simp), h .e (by simp)]
  simp only [bind, Except.bind, pure, Except.pure]
  rw [panel_label hl h1 h9 hlet hd (by simp) (hk .per (by simp)), panel_label hl h1 h9 hlet hd (by simp) (hk .k (by simp)), panel_label hl h1 h9 hlet hd (by simp) (hk .e (by simp))]
  rfl

/-- C165 (missing: planets from the tenth on, whose labels are wrong, see C09): after sampling, the panel of a planet shows period, semi-amplitude and eccentricity with the letter of the planet and exactly the medians
and errors that were reported for them. Those are the quantiles of the samples: the error is half of the central 68.2 percent, to two digits, and the median is at most half of that error off. -/
theorem C165_reported_partial {S : Nat} (params : Params ℝ) (labels : Dict Text Text) (hl : params.texLabels = .ok labels) (n : Nat) (h1 : 1 ≤ n) (h9 : n ≤ 9) (letter : Text)
    (hlet : letterOf params.letters n = some letter) (hd : '$' ∉ letter) (hk : ∀ p ∈ [PName.per, PName.k, PName.e], Key.orb p n ∈ params.items.keys)
    (cols : PName → Fin S → Option ℝ) (hcols : ∀ p, ∃ j x, cols p j = some x) (maxlike : PName → ℝ) :
    ∃ r : PName → Reported, (∀ p, ∃ lo med hi, quantile (cols p) 0.159 = some lo ∧ quantile (cols p) 0.5 = some med ∧ quantile (cols p) 0.841 = some hi ∧
        (r p).err = roundSig ((hi - lo) / 2) 2 ∧ |(r p).med - med| ≤ (r p).err / 2) ∧
      (∃ F, ∀ fuel, F ≤ fuel → ∀ p, report fuel (maxlike p) (cols p) = .ok (some (r p))) ∧
      ∀ (u m : Dict Key ℝ) (chains : Option Samples), (∀ p, u.get? (Key.orb p n) = some (r p).err) → (∀ p, m.get? (Key.orb p n) = some (r p).med) →
        ∃ F, ∀ fuel, F ≤ fuel → phaseText fuel params (some u) (some m) none chains n = .ok [some ⟨"P_{".toList ++ letter ++ "}".toList, shownReport (r .per), "days".toList⟩,
          some ⟨"K_{".toList ++ letter ++ "}".toList, shownReport (r .k), "m s$^{\\mathregular{-1}}$".toList⟩, some ⟨"e_{".toList ++ letter ++ "}".toList, shownReport (r .e), []⟩] := by
  choose lo med hi r F q1 q2 q3 m1 m2 hF e1 e2 e3 using fun p => report_spec (maxlike p) (cols p) (hcols p)
  have hall : ∀ f : PName → Nat, ∃ G, ∀ p, f p ≤ G := by
    intro f
    obtain ⟨l, hl⟩ : ∃ l : List PName, ∀ p, p ∈ l := ⟨[.per, .logper, .tc, .tp, .secosw, .sesinw, .ecosw, .esinw, .e, .se, .w, .k, .logk], fun p => by cases p <;> decide⟩
    refine ⟨(l.map f).sum, fun p => List.le_sum_of_mem (List.mem_map_of_mem (hl p))⟩
  obtain ⟨G, hG⟩ := hall F
  refine ⟨r, fun p => ⟨lo p, med p, hi p, q1 p, q2 p, q3 p, e1 p, e2 p⟩, ⟨G, fun fuel hf p => hF p fuel ((hG p).trans hf)⟩, ?_⟩
  intro u m chains hu hm
  have hnum : ∀ p, ∃ F, ∀ fuel, F ≤ fuel → anoNums fuel (r p).med (r p).err = some (shownReport (r p)) := by
    intro p
    unfold shownReport
    by_cases hpos : 1e-15 < (r p).err
    · rw [if_pos hpos]
      have hpos' : 1e-15 < roundSig ((hi p - lo p) / 2) 2 := by rw [← e1 p]; exact hpos
      refine anoNums_reported (maxlike p) (med p) _ hpos' (r p) ⟨F p, fun fuel hf => ?_⟩
      have := hF p fuel hf
      unfold report at this
      rw [q1 p, q2 p, q3 p] at this
      simp only at this
      rw [show (hi p - med p + (med p - lo p)) / 2 = (hi p - lo p) / 2 by ring, if_pos (by linarith)] at this
      exact Except.ok.inj this
    · rw [if_neg hpos]
      refine ⟨0, fun fuel _ => ?_⟩
      unfold anoNums
      rw [if_neg hpos]
  choose H hH using hnum
  obtain ⟨G', hG'⟩ := hall H
  refine ⟨G', fun fuel hf => phaseText_orbit hl h1 h9 hlet hd fuel _ _ _ (fun p => shownReport (r p)) ?_ hk⟩
  intro p hp unit
  obtain ⟨q, hq⟩ := Dict.exists_get?_of_mem _ (hk p hp)
  unfold orbitLine
  simp only [hq, hu p, hm p]
  rw [hH p fuel ((hG' p).trans hf)]
  rfl

/-- C165, without sampling (missing: small numbers, next theorem): the panel shows the values of the parameters, rounded to two decimals. -/
theorem C165_fitted_partial (params : Params ℝ) (labels : Dict Text Text) (hl : params.texLabels = .ok labels) (n : Nat) (h1 : 1 ≤ n) (h9 : n ≤ 9) (letter : Text)
    (hlet : letterOf params.letters n = some letter) (hd : '$' ∉ letter) (q : PName → Parameter ℝ) (hq : ∀ p ∈ [PName.per, PName.k, PName.e], params.items.get? (Key.orb p n) = some (q p)) (m : Option (Dict Key ℝ))
    (chains : Option Samples) :
    ∃ v : PName → ℝ, (∀ p, |v p - (q p).value| ≤ 0.005) ∧ ∀ fuel, phaseText fuel params none m none chains n = .ok [some ⟨"P_{".toList ++ letter ++ "}".toList, .plain (v .per), "days".toList⟩,
      some ⟨"K_{".toList ++ letter ++ "}".toList, .plain (v .k), "m s$^{\\mathregular{-1}}$".toList⟩, some ⟨"e_{".toList ++ letter ++ "}".toList, .plain (v .e), []⟩] := by
  refine ⟨fun p => pyRound (q p).value 2, fun p => ?_, fun fuel => phaseText_orbit hl h1 h9 hlet hd fuel _ _ _ (fun p => .plain (pyRound (q p).value 2)) ?_ fun p hp => Dict.mem_keys_of_get? _ (hq p hp)⟩
  · have := pyRound_dist (q p).value 2
    norm_num at this ⊢
    linarith
  · intro p hp unit
    unfold orbitLine
    simp only [hq p hp]

/-- C165 is violated by small numbers: without sampling, and for fixed parameters, a semi-amplitude or eccentricity up to 0.005 is shown as `0.00`, although it is not zero. -/
theorem C165_small_violated (params : Params ℝ) (labels : Dict Text Text) (n : Nat) (p : PName) (unit : Text) (q : Parameter ℝ) (hq : params.items.get? (Key.orb p n) = some q) (hpos : 0 < q.value) (hsmall : q.value ≤ 0.005)
    (fuel : Nat) (u m : Dict Key ℝ) (hu : u.get? (Key.orb p n) = some 0) (hm : m.get? (Key.orb p n) = some q.value) :
    ∃ label, orbitLine fuel params labels none none n (p, unit) = .ok (some ⟨label, .plain 0, unit⟩) ∧ orbitLine fuel params labels (some u) (some m) n (p, unit) = .ok (some ⟨label, .plain 0, unit⟩) ∧ q.value ≠ 0 := by
  have h0 : pyRound q.value 2 = 0 := by
    rw [pyRound_eq_zero, abs_of_nonneg (by positivity)]
    norm_num at hsmall ⊢
    linarith
  refine ⟨noDollar ((labels.get? (Key.orb p n).render).getD (Key.orb p n).render), ?_, ?_, hpos.ne'⟩
  · unfold orbitLine
    simp only [hq, h0]
  · unfold orbitLine
    simp only [hq, hu, hm]
    unfold anoNums
    rw [if_neg (by norm_num), h0]
    rfl

/-- Non-vacuity of the theorems on the orbit: two planets in the synth basis, with and without letters of one's own. -/
example : (∃ labels, (Params.init (0.004 : ℝ) 2 .perTpEWK none).texLabels = .ok labels) ∧ (∃ labels, (Params.init (0.004 : ℝ) 2 .perTpEWK (some [(1, "d"), (2, "e")])).texLabels = .ok labels) ∧
    letterOf none 2 = some ['c'] ∧ letterOf (some [(1, "d"), (2, "e")]) 2 = some ['e'] ∧
    (∀ p ∈ [PName.per, PName.k, PName.e], ∃ q : Parameter ℝ, (Params.init (0.004 : ℝ) 2 .perTpEWK none).items.get? (Key.orb p 2) = some q ∧ q.value = 0.004) := by
  refine ⟨⟨_, rfl⟩, ⟨_, rfl⟩, rfl, rfl, ?_⟩
  intro p hp
  simp only [List.mem_cons, List.not_mem_nil, or_false] at hp
  rcases hp with rfl | rfl | rfl <;> exact ⟨_, rfl, rfl⟩

/-- The line of the mass is the only one that depends on the derived parameters. -/
theorem phaseText_mass {fuel : Nat} {params : Params ℝ} {u m : Option (Dict Key ℝ)} {chains : Option Samples} {n : Nat} {lines : List (Option AnoLine)} (h : phaseText fuel params u m none chains n = .ok lines)
    (d : Dict Text Quants) (s : Samples) : phaseText fuel params u m (some d) (some s) n = match massLine fuel params.numPlanets n d s with | .error e => .error e | .ok more => .ok (lines ++ more) := by
  unfold phaseText at h ⊢
  rcases ht : params.texLabels with e | labels
  · rw [ht] at h; cases h
  · rw [ht] at h
    simp only at h ⊢
    rcases hm : printParams.mapM (orbitLine fuel params labels u m n) with e | l
    · rw [hm] at h; cases h
    · rw [hm] at h
      cases h
      rfl

theorem derivedInit_ten (N : Nat) (hN : N ≤ 10) (s : Samples) : ∃ x, derivedInit none N s = .ok x := by
  obtain ⟨axes, h, _⟩ := derivedInit_ok none (fun n => ((plotLetters none).get? n).getD "") s N (fun n h1 h2 => by
    have : n ≤ 10 := h2.trans hN
    interval_cases n <;> rfl)
  exact ⟨_, h⟩

theorem defaultLetter_get (n : Nat) (h1 : 1 ≤ n) (h2 : n ≤ 10) : (plotLetters none).get? n = some (String.ofList [Char.ofNat ('a'.toNat + n)]) := by
  interval_cases n <;> rfl

theorem find_label {N : Nat} {s : Samples} {q : Text} {u : DerivedUnit} (h : (q, u) ∈ (derivedPlot N s).2) : ∃ u', (derivedPlot N s).2.find? (fun x => x.1 == q) = some (q, u') ∧ (q, u') ∈ (derivedPlot N s).2 := by
  rcases hf : (derivedPlot N s).2.find? (fun x => x.1 == q) with _ | ⟨q', u'⟩
  · rw [List.find?_eq_none] at hf
    exact absurd (by simp) (hf _ h)
  · have h1 := List.find?_some hf
    simp only [beq_iff_eq] at h1
    cases h1
    exact ⟨u', hf, List.mem_of_find?_eq_some hf⟩

/-- The unit of a mass without nan. -/
theorem mass_unit {N n : Nat} {s : Samples} {col : List ℝ} (h1 : 1 ≤ n) (h2 : n ≤ N) (hcol : s.get? ("mpsini".toList ++ digits n) = some (col.map some)) :
    (derivedPlot N s).2.find? (fun x => x.1 == "mpsini".toList ++ digits n) = some ("mpsini".toList ++ digits n, (massUnit (median col)).1) := by
  have hshown : shown s ("mpsini".toList ++ digits n) = true := by
    unfold shown
    rw [hcol]
    simp
  have hmed : colMedian ((s.get? ("mpsini".toList ++ digits n)).getD []) = median col := by
    rw [hcol]
    unfold colMedian
    simp [List.map_map, Function.comp_def]
  have hlab : ("mpsini".toList ++ digits n, (massUnit (median col)).1) ∈ (derivedPlot N s).2 := by
    rw [mem_derivedPlot_labels]
    exact ⟨n, "mpsini".toList, h1, h2, by decide, rfl, hshown, by rw [if_pos rfl, hmed]⟩
  obtain ⟨u', hf, hm⟩ := find_label hlab
  obtain ⟨n', k', _, _, hk', he, _, hu⟩ := (mem_derivedPlot_labels _ _ _ _).1 hm
  have hk : k' = "mpsini".toList := by
    simp only [derivedKeys, List.mem_cons, List.not_mem_nil, or_false] at hk'
    rcases hk' with rfl | rfl | rfl
    · rfl
    · have := congrArg List.head? he
      simp at this
    · have := congrArg List.head? he
      simp at this
  rw [hf, hu, if_pos hk, hmed]

/-- C165, the mass (missing: planets from the eleventh on, samples with nan, letters of one's own; false for those, see the next theorems): after `derive`, one more line shows the derived minimum mass of the planet. Value
and error come from the derived quantiles, in the unit that is written behind them: Earth masses, or Jupiter masses (of 317.83 Earth masses, to 0.2 percent) if the median of the samples in the file is above 100. -/
theorem C165_mass_partial (params : Params ℝ) (u m : Option (Dict Key ℝ)) (n : Nat) (h1 : 1 ≤ n) (h2 : n ≤ params.numPlanets) (hN : params.numPlanets ≤ 10) (lines : List (Option AnoLine)) (F0 : Nat)
    (hlines : ∀ fuel, F0 ≤ fuel → phaseText fuel params u m none none n = .ok lines) (d : Dict Text Quants) (s : Samples) (q : Quants) (hq : d.get? ("mpsini".toList ++ Nat.toDigits 10 n) = some q)
    (col : List ℝ) (hcol : s.get? ("mpsini".toList ++ Nat.toDigits 10 n) = some (col.map some)) :
    ∃ (c : ℝ) (unit : Text), (median col ≤ 100 → c = 1 ∧ unit = "M$_{\\oplus}$".toList) ∧ (100 < median col → |c * 317.83 - 1| ≤ 0.002 ∧ unit = "M$_{\\rm Jup}$".toList) ∧
      ∃ nums F, (∀ fuel, F ≤ fuel → phaseText fuel params u m (some d) (some s) n = .ok (lines ++ [some ⟨"M_".toList ++ [Char.ofNat ('a'.toNat + n)] ++ "\\sin i".toList, nums, unit⟩])) ∧
        ((∃ v, nums = .interval v (roundSig ((q.high - q.low) / 2 * c) 2) ∧ |v - q.mid * c| ≤ roundSig ((q.high - q.low) / 2 * c) 2 / 2) ∨
          (roundSig ((q.high - q.low) / 2 * c) 2 ≤ 1e-15 ∧ ∃ v, nums = .plain v ∧ |v - q.mid * c| ≤ 0.005)) := by
  change d.get? ("mpsini".toList ++ digits n) = some q at hq
  change s.get? ("mpsini".toList ++ digits n) = some (col.map some) at hcol
  have hfac : (massUnit (median col)).1.factor = (massUnit (median col)).2 := by
    unfold massUnit
    split_ifs <;> rfl
  refine ⟨(massUnit (median col)).2, (massUnit (median col)).1.text, ?_, ?_, ?_⟩
  · intro hm
    have e : massUnit (median col) = (.earth, 1) := by unfold massUnit; rw [if_neg (not_lt.2 hm), if_neg (not_lt.2 hm)]
    rw [e]
    exact ⟨rfl, rfl⟩
  · intro hm
    have e : massUnit (median col) = (.jupiter, 0.00315) := by unfold massUnit; rw [if_pos hm]
    rw [e]
    exact ⟨by norm_num [abs_le], rfl⟩
  generalize hc : (massUnit (median col)).2 = c at hfac ⊢
  obtain ⟨x, hx⟩ := derivedInit_ten _ hN s
  have hlabel : noDollar ((derivedTex ("mpsini".toList ++ digits n) [Char.ofNat ('a'.toNat + n)]).getD "None".toList) = "M_".toList ++ [Char.ofNat ('a'.toNat + n)] ++ "\\sin i".toList := by
    rw [derivedTex_eq (by decide)]
    have : n ≤ 10 := h2.trans hN
    interval_cases n <;> rfl
  have hline : ∀ fuel nums, anoNums fuel (q.mid * c) (roundSig ((q.high - q.low) / 2 * c) 2) = some nums → F0 ≤ fuel →
      phaseText fuel params u m (some d) (some s) n = .ok (lines ++ [some ⟨"M_".toList ++ [Char.ofNat ('a'.toNat + n)] ++ "\\sin i".toList, nums, (massUnit (median col)).1.text⟩]) := by
    intro fuel nums hn hf
    rw [phaseText_mass (hlines fuel hf)]
    unfold massLine
    rw [hx]
    simp only [hq, mass_unit h1 h2 hcol, defaultLetter_get n h1 (h2.trans hN), hfac, String.toList_ofList]
    rw [show (q.mid * c - q.low * c + (q.high * c - q.mid * c)) / 2 = (q.high - q.low) / 2 * c by ring, hn, Option.map_some, hlabel]
  by_cases hpos : 1e-15 < roundSig ((q.high - q.low) / 2 * c) 2
  · obtain ⟨v, F, hv, hd⟩ := anoNums_spec (q.mid * c) _ hpos
    exact ⟨_, max F F0, fun fuel hf => hline fuel _ (hv fuel (le_trans (le_max_left _ _) hf)) (le_trans (le_max_right _ _) hf), .inl ⟨v, rfl, hd⟩⟩
  · refine ⟨.plain (pyRound (q.mid * c) 2), F0, fun fuel hf => hline fuel _ (by unfold anoNums; rw [if_neg hpos]) hf, .inr ⟨not_lt.1 hpos, _, rfl, ?_⟩⟩
    have := pyRound_dist (q.mid * c) 2
    norm_num at this ⊢
    linarith

/-- C165 is violated by letters of one's own: period, semi-amplitude and eccentricity carry the letter that the parameters were given, the mass in the same panel the default letter. -/
theorem C165_letters_violated (params : Params ℝ) (labels : Dict Text Text) (hl : params.texLabels = .ok labels) (n : Nat) (h1 : 1 ≤ n) (h9 : n ≤ 9) (h2 : n ≤ params.numPlanets) (hN : params.numPlanets ≤ 10)
    (letters : Dict Nat String) (hletters : params.letters = some letters) (letter : String) (hlet : letters.get? n = some letter) (hd : '$' ∉ letter.toList) (hne : letter.toList ≠ [Char.ofNat ('a'.toNat + n)])
    (par : PName → Parameter ℝ) (hq : ∀ p ∈ [PName.per, PName.k, PName.e], params.items.get? (Key.orb p n) = some (par p)) (d : Dict Text Quants) (s : Samples) (q : Quants)
    (hder : d.get? ("mpsini".toList ++ Nat.toDigits 10 n) = some q) (col : List ℝ) (hcol : s.get? ("mpsini".toList ++ Nat.toDigits 10 n) = some (col.map some)) :
    ∃ per k e mass F, (∀ fuel, F ≤ fuel → phaseText fuel params none none (some d) (some s) n = .ok [some per, some k, some e, some mass]) ∧ per.label = "P_{".toList ++ letter.toList ++ "}".toList ∧
      mass.label = "M_".toList ++ [Char.ofNat ('a'.toNat + n)] ++ "\\sin i".toList ∧ letter.toList ≠ [Char.ofNat ('a'.toNat + n)] := by
  obtain ⟨v, _, hv⟩ := C165_fitted_partial params labels hl n h1 h9 letter.toList (by rw [hletters]; unfold letterOf; simp only [hlet, Option.map_some]) hd par hq none none
  obtain ⟨c, unit, _, _, nums, F, h, _⟩ := C165_mass_partial params none none n h1 h2 hN _ 0 (fun fuel _ => hv fuel) d s q hder col hcol
  exact ⟨_, _, _, _, F, h, rfl, rfl, hne⟩

/-- C165 is violated by a single nan in the samples of the mass: the column of derived quantiles exists, but the label is not among those of the plot, and the whole figure fails with `IndexError`. -/
theorem C165_nan_violated (params : Params ℝ) (u m : Option (Dict Key ℝ)) (n : Nat) (hN : params.numPlanets ≤ 10) (fuel : Nat) (lines : List (Option AnoLine))
    (hlines : phaseText fuel params u m none none n = .ok lines) (d : Dict Text Quants) (s : Samples) (q : Quants) (hq : d.get? ("mpsini".toList ++ Nat.toDigits 10 n) = some q)
    (col : List (Option ℝ)) (hcol : s.get? ("mpsini".toList ++ Nat.toDigits 10 n) = some col) (hnan : none ∈ col) :
    phaseText fuel params u m (some d) (some s) n = .error .indexError := by
  change d.get? ("mpsini".toList ++ digits n) = some q at hq
  change s.get? ("mpsini".toList ++ digits n) = some col at hcol
  rw [phaseText_mass hlines]
  obtain ⟨x, hx⟩ := derivedInit_ten _ hN s
  have hf : (derivedPlot params.numPlanets s).2.find? (fun x => x.1 == "mpsini".toList ++ digits n) = none := by
    rw [List.find?_eq_none]
    rintro ⟨q', u'⟩ hm he
    simp only [beq_iff_eq] at he
    subst he
    obtain ⟨_, _, _, _, _, _, hs, _⟩ := (mem_derivedPlot_labels _ _ _ _).1 hm
    unfold shown at hs
    rw [hcol] at hs
    simp only [List.all_eq_true] at hs
    exact absurd (hs none hnan) (by simp)
  unfold massLine
  rw [hx]
  simp only [hq, hf]

/-- C165 is violated for eleven planets or more: after `derive`, the figure fails with `KeyError`. -/
theorem C165_eleven_violated (params : Params ℝ) (u m : Option (Dict Key ℝ)) (n : Nat) (hN : 11 ≤ params.numPlanets) (fuel : Nat) (lines : List (Option AnoLine))
    (hlines : phaseText fuel params u m none none n = .ok lines) (d : Dict Text Quants) (s : Samples) : phaseText fuel params u m (some d) (some s) n = .error .keyError := by
  rw [phaseText_mass hlines]
  unfold massLine
  rw [derivedInit_eleven s _ hN]

/-- Non-vacuity of the theorems on the mass: a planet of 50 Earth masses, one of 1000, and one with a nan. -/
example : ∃ (d : Dict Text Quants) (s : Samples), d.get? ("mpsini".toList ++ Nat.toDigits 10 1) = some ⟨40, 50, 60⟩ ∧ s.get? ("mpsini".toList ++ Nat.toDigits 10 1) = some ([50].map some) ∧ median [50] ≤ (100 : ℝ) ∧
    s.get? ("mpsini".toList ++ Nat.toDigits 10 2) = some ([1000].map some) ∧ (100 : ℝ) < median [1000] ∧ s.get? ("mpsini".toList ++ Nat.toDigits 10 3) = some [some 1, none] :=
  ⟨[("mpsini1".toList, ⟨40, 50, 60⟩)], [("mpsini1".toList, [some 50]), ("mpsini2".toList, [some 1000]), ("mpsini3".toList, [some 1, none])], rfl, rfl, by norm_num [median], rfl, by norm_num [median], rfl⟩

end Radvel
