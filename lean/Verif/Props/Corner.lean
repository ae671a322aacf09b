import Verif.Lemmas.Corner
import Verif.Props.Params
import Verif.Props.TexLabels
import Mathlib.Tactic.IntervalCases

/-! # C161: corner plots, trend plots, and the letters of planets -/

namespace Radvel

/-- C161, provable part: if dictionary and vector agree, the corner plot shows every free parameter (as the sampler names its columns) exactly once, in the order of the dictionary, each with the samples of its own column and
the label of `tex_labels`; and the font size is afterwards what it was. `htrend`: no trend that is missing in the dictionary is free. -/
theorem C161_corner_partial {α : Type} [Zero α] (l : LikeState α) (hs : Built l.st) (hsync : Synced l.st) (hc : l.cache = none ∨ l.cache = some (freeRows l.st.rows))
    (htrend : ∀ k i r, k = Key.dvdt ∨ k = Key.curv → l.st.indices.get? k = some i → l.st.rows[i]? = some r → r.vary = true → k ∈ l.st.params.items.keys)
    (lab : Text → Text) (hlab : ∀ k ∈ l.st.params.items.keys, labelOf (l.st.params.planetParameters.map PName.chars) l.st.params.letters k.render = .ok (lab k.render)) :
    ∃ (ks axes : List Key), l.nameVaryParams.2 = .ok ks ∧ axes.Perm ks ∧ axes.Sublist l.st.params.items.keys ∧
      ∀ (cols : Key → List (Option ℝ)) (s : Samples), (∀ k ∈ ks, s.get? k.render = some (cols k)) →
        ∀ (draw : Nat → CornerFig → Except PyErr Unit), (∀ n fig, draw n fig = .ok ()) →
        ∀ font, cornerPlot draw l.st.params s font = (font, .ok (axes.map fun k => (lab k.render, cols k))) := by
  obtain ⟨ks, h1, h2⟩ := corner_perm l hs hsync hc htrend
  refine ⟨ks, _, h1, h2, cornerLabels_sublist _, ?_⟩
  intro cols s hcols draw hdraw font
  have hinit : cornerInit l.st.params = .ok ((cornerLabels l.st.params).map fun k => (k.render, lab k.render)) :=
    mapM_ok _ _ _ fun k hk => axisLabel_ok hlab ((cornerLabels_sublist _).subset hk)
  have hpick : ((cornerLabels l.st.params).map fun k => (k.render, lab k.render)).mapM (pickColumn s) = .ok ((cornerLabels l.st.params).map fun k => (lab k.render, cols k)) := by
    rw [mapM_map]
    refine mapM_ok _ _ _ fun k hk => ?_
    simp only [pickColumn, hcols k (h2.mem_iff.1 hk)]
  simp only [cornerPlot, hinit, cornerDraw, hpick, hdraw]

/-- C161: the pages of the trend plot are the same parameters, each once, with the same labels, in the order in which `sorted` puts them. -/
theorem C161_trend_partial {α : Type} [Zero α] (l : LikeState α) (hs : Built l.st) (hsync : Synced l.st) (hc : l.cache = none ∨ l.cache = some (freeRows l.st.rows))
    (htrend : ∀ k i r, k = Key.dvdt ∨ k = Key.curv → l.st.indices.get? k = some i → l.st.rows[i]? = some r → r.vary = true → k ∈ l.st.params.items.keys)
    (lab : Text → Text) (hlab : ∀ k ∈ l.st.params.items.keys, labelOf (l.st.params.planetParameters.map PName.chars) l.st.params.letters k.render = .ok (lab k.render))
    (sort : List Key → List Key) (hsort : ∀ ks, (sort ks).Perm ks) :
    ∃ (ks : List Key) (pages : List (Text × Text)), l.nameVaryParams.2 = .ok ks ∧ trendInit sort l.st.params = .ok pages ∧ pages.Perm (ks.map fun k => (k.render, lab k.render)) := by
  obtain ⟨ks, h1, h2⟩ := corner_perm l hs hsync hc htrend
  refine ⟨ks, _, h1, mapM_ok _ (fun k => (k.render, lab k.render)) _ fun k hk => axisLabel_ok hlab ((cornerLabels_sublist _).subset ((hsort _).mem_iff.1 hk)), ?_⟩
  exact ((hsort _).trans h2).map _

/-- The labels that `C161_corner_partial` asks for exist whenever no planet letters are given. -/
theorem C161_labels_exist {α : Type} (p : Params α) (hl : p.letters = none) (hk : ∀ k ∈ p.items.keys, k ≠ .other "") :
    ∃ lab : Text → Text, ∀ k ∈ p.items.keys, labelOf (p.planetParameters.map PName.chars) p.letters k.render = .ok (lab k.render) := by
  refine ⟨fun t => match labelOf (p.planetParameters.map PName.chars) none t with | .ok x => x | .error _ => [], ?_⟩
  intro k hm
  have hne : k.render ≠ [] := by
    intro h
    cases k with
    | orb q n => cases q <;> cases h
    | dvdt => cases h
    | curv => cases h
    | inst g r => cases g <;> cases h
    | other s => exact hk _ hm (by rw [show s = "" from String.ext h])
  obtain ⟨t, ht⟩ := labelOf_none_ok (p.planetParameters.map PName.chars) hne
  rw [hl]
  simp only [ht]

/-- Non-vacuity of `C161_corner_partial` and `C161_trend_partial`: two planets, a slope, an instrument. -/
example : Built exampleState ∧ Synced exampleState ∧ exampleState.params.letters = none ∧ (∀ k ∈ exampleState.params.items.keys, k ≠ .other "") ∧
    (∀ k i r, k = Key.dvdt ∨ k = Key.curv → exampleState.indices.get? k = some i → exampleState.rows[i]? = some r → r.vary = true → k ∈ exampleState.params.items.keys) ∧
    (cornerLabels exampleState.params).length = 12 := by
  refine ⟨exampleState_built, ?_, by decide +kernel, by decide +kernel, ?_, by decide +kernel⟩
  · obtain ⟨s, h1, _, _, h4⟩ := C01_model exampleParams exampleParams_user
    have : exampleState = s := by simp only [exampleState, h1, okState]
    rw [this]
    exact h4
  · rintro k i r (rfl | rfl) hi hr hv
    · decide +kernel
    · exfalso
      have h1 : exampleState.indices.get? Key.curv = some 11 := by decide +kernel
      rw [h1] at hi
      cases hi
      have h2 : (exampleState.rows[11]?).map Row.vary = some false := by decide +kernel
      rw [hr] at h2
      simp only [Option.map_some, hv] at h2
      cases h2

/-- C161, the derived plot, provable part: if there is a letter for each planet, the figure has one axis for each column of a mass, density or semi-major axis without nan, with the samples in the unit of the axis; its label is
the symbol of the quantity with the planet's letter, and the unit. The font size is afterwards what it was. -/
theorem C161_derived_partial (letters : Option (Dict Nat String)) (lett : Nat → String) (s : Samples) (N : Nat) (hl : ∀ n, 1 ≤ n → n ≤ N → (plotLetters letters).get? n = some (lett n))
    (draw : Nat → CornerFig → Except PyErr Unit) (hdraw : ∀ n fig, draw n fig = .ok ()) (font : Nat) :
    ∃ fig, derivedFigure draw letters N s font = (font, .ok fig) ∧ fig.length = (derivedPlot N s).2.length ∧
      ∀ (j : Nat) q u, (derivedPlot N s).2[j]? = some (q, u) → ∃ n k col, 1 ≤ n ∧ n ≤ N ∧ k ∈ derivedKeys ∧ q = k ++ Nat.toDigits 10 n ∧ (derivedPlot N s).1.get? q = some col ∧
        fig[j]? = some (derivedSymbol k (lett n).toList ++ " [".toList ++ u.text ++ "]".toList, col) := by
  obtain ⟨axes, h1, h2, h3⟩ := derivedInit_ok letters lett s N hl
  have hcol : ∀ x ∈ axes, ∃ c, (derivedPlot N s).1.get? x.1 = some c := by
    intro x hx
    have hm : x.1 ∈ (derivedPlot N s).2.map Prod.fst := by rw [← h2]; exact List.mem_map_of_mem hx
    obtain ⟨⟨q, u⟩, hq, he⟩ := List.mem_map.1 hm
    obtain ⟨n, k, a, b, c, d, e, _⟩ := (mem_derivedPlot_labels N s q u).1 hq
    simp only at he
    subst he
    rw [d]
    unfold derivedPlot
    rw [derivedLoop_self _ s (nodup_labels N) n k ((mem_pairs N n k).2 ⟨a, b, c⟩), derivedStep_self]
    split_ifs
    · exact ⟨_, rfl⟩
    · rw [← d]
      unfold shown at e
      cases hg : Dict.get? s x.1 with
      | none => rw [hg] at e; cases e
      | some c => exact ⟨c, rfl⟩
  have hfig : axes.mapM (pickColumn (derivedPlot N s).1) = .ok (axes.map fun x => (x.2, ((derivedPlot N s).1.get? x.1).getD [])) := by
    refine mapM_ok _ _ _ fun x hx => ?_
    obtain ⟨c, hc⟩ := hcol x hx
    simp only [pickColumn, hc, Option.getD_some]
  refine ⟨axes.map fun x => (x.2, ((derivedPlot N s).1.get? x.1).getD []), ?_, ?_, ?_⟩
  · simp only [derivedFigure, h1, cornerDraw, hfig, hdraw]
  · simpa using congrArg List.length h2
  · intro j q u hj
    have hj' : (axes[j]?).map Prod.fst = some q := by
      rw [← List.getElem?_map, h2, List.getElem?_map, hj]; rfl
    obtain ⟨⟨q', t⟩, hx, hq⟩ := Option.map_eq_some_iff.1 hj'
    simp only at hq
    subst hq
    obtain ⟨n, k, a, b, c, d, e⟩ := h3 j q' t u hx hj
    obtain ⟨col, hc⟩ := hcol _ (List.mem_of_getElem? hx)
    refine ⟨n, k, col, a, b, c, d, hc, ?_⟩
    rw [List.getElem?_map, hx]
    simp only [Option.map_some, hc, Option.getD_some]
    rw [e, derivedAxis, d, derivedTex_eq c]
    rfl

/-- Non-vacuity of `C161_derived_partial`: the default letters cover ten planets. -/
example : ∃ lett : Nat → String, ∀ n, 1 ≤ n → n ≤ 10 → (plotLetters none).get? n = some (lett n) := by
  refine ⟨fun n => ((plotLetters none).get? n).getD "", fun n h1 h2 => ?_⟩
  interval_cases n <;> rfl

/-- C161, the letters, provable part (nine planets): if the setup file's `planet_letters` are also those of `params`, or neither is given, the corner plot and the tables name a planet with the same letter as the derived plot. -/
theorem C161_letters_partial (letters : Option (Dict Nat String)) (p : PName) (n : Nat) (h1 : 1 ≤ n) (h9 : n ≤ 9) (hl : ∀ d, letters = some d → ∃ l, d.get? n = some l) :
    ∃ letter : String, (plotLetters letters).get? n = some letter ∧
      texLabel letters (Key.orb p n).render = some (.ok ("$".toList ++ p.symbol.toList ++ "_{".toList ++ letter.toList ++ "}$".toList)) := by
  cases letters with
  | some d =>
    obtain ⟨l, h⟩ := hl d rfl
    exact ⟨l, h, C09_custom_letters_partial p n h1 h9 d l h⟩
  | none =>
    refine ⟨String.ofList [planetLetter n], ?_, ?_⟩
    · interval_cases n <;> decide +kernel
    · rw [C09_label_partial p n h1 h9]
      simp

/-- Non-vacuity of `C161_letters_partial`: letters for planets d and e. -/
example : ∀ d : Dict Nat String, some [(1, "d"), (2, "e")] = some d → ∃ l, Dict.get? d 2 = some l := by
  rintro d ⟨⟩
  exact ⟨"e", rfl⟩

/-- C161 is violated for the letters if the setup file defines `planet_letters` but does not pass them to `Parameters` (as /repo/example_planets/epic203771098.py 16, 24 does): the planet has one letter in the derived plot and
another one in the corner plot and the tables. -/
theorem C161_letters_violated (p : PName) (n : Nat) (h1 : 1 ≤ n) (h9 : n ≤ 9) (d : Dict Nat String) (letter : String) (hd : d.get? n = some letter) (hne : letter.toList ≠ [planetLetter n]) (k : Text) (hk : k ∈ derivedKeys) :
    (plotLetters (some d)).get? n = some letter ∧ derivedTex (k ++ Nat.toDigits 10 n) letter.toList = some (derivedSymbol k letter.toList) ∧
    texLabel none (Key.orb p n).render = some (.ok ("$".toList ++ p.symbol.toList ++ "_{".toList ++ [planetLetter n] ++ "}$".toList)) ∧ letter.toList ≠ [planetLetter n] :=
  ⟨hd, derivedTex_eq hk n _, C09_label_partial p n h1 h9, hne⟩

/-- Non-vacuity of `C161_letters_violated`: the planet d as planet 1. -/
example : Dict.get? ([(1, "d")] : Dict Nat String) 1 = some "d" ∧ "d".toList ≠ [planetLetter 1] := by decide +kernel

/-- C161 is violated for more than ten planets without letters: the derived plot raises `KeyError`, whatever the samples are. -/
theorem C161_eleven_violated (draw : Nat → CornerFig → Except PyErr Unit) (s : Samples) (N : Nat) (hN : 11 ≤ N) (font : Nat) : derivedFigure draw none N s font = (font, .error .keyError) := by
  simp only [derivedFigure, derivedInit_eleven s N hN]

/-- C161 is violated if a flag of the dictionary is set after sampling: the corner plot raises `KeyError`, and all figures drawn later in the same process have the font size 12. -/
theorem C161_flag_violated {α : Type} (p : Params α) (hn : p.items.keys.Nodup) (lab : Text → Text)
    (hlab : ∀ k ∈ p.items.keys, labelOf (p.planetParameters.map PName.chars) p.letters k.render = .ok (lab k.render)) (k : Key) (q : Parameter α) (hq : p.items.get? k = some q) (hv : q.vary = .yes)
    (s : Samples) (hs : s.get? k.render = none) (draw : Nat → CornerFig → Except PyErr Unit) (font : Nat) : cornerPlot draw p s font = (12, .error .keyError) := by
  have hinit : cornerInit p = .ok ((cornerLabels p).map fun k => (k.render, lab k.render)) :=
    mapM_ok _ _ _ fun k hk => axisLabel_ok hlab ((cornerLabels_sublist _).subset hk)
  have hm : (k.render, lab k.render) ∈ (cornerLabels p).map fun k => (k.render, lab k.render) := List.mem_map_of_mem ((mem_cornerLabels hn k).2 ⟨q, hq, hv⟩)
  have hpick : ∀ l : List (Text × Text), (k.render, lab k.render) ∈ l → l.mapM (pickColumn s) = .error .keyError := by
    intro l
    induction l with
    | nil => intro h; cases h
    | cons x l ih =>
      intro h
      rw [List.mapM_cons]
      rcases hx : pickColumn s x with e | y
      · have : e = .keyError := by
          unfold pickColumn at hx
          split at hx <;> cases hx
          rfl
        subst this
        rfl
      · rcases List.mem_cons.1 h with rfl | h
        · simp only [pickColumn, hs] at hx
          cases hx
        · rw [ih h]; rfl
  simp only [cornerPlot, hinit, cornerDraw, hpick _ hm]

/-- Non-vacuity of `C161_flag_violated`: `curv` is assigned after the samples were made. -/
example : ∃ q, (exampleParams.setItem .curv { value := 0 }).items.get? .curv = some q ∧ q.vary = .yes ∧ (exampleParams.setItem .curv { value := 0 }).items.keys.Nodup :=
  ⟨{ value := 0 }, by decide +kernel, rfl, by decide +kernel⟩

/-- C161 is violated whenever drawing fails (`corner` raises `ValueError` for a parameter whose samples are all equal): the font size stays 12. -/
theorem C161_font_violated (draw : Nat → CornerFig → Except PyErr Unit) (s : Samples) (axes : List (Text × Text)) (font : Nat) (fig : CornerFig) (e : PyErr) (h : axes.mapM (pickColumn s) = .ok fig) (hd : draw 12 fig = .error e) :
    cornerDraw draw s axes font = (12, .error e) := by
  simp only [cornerDraw, h, hd]

/-- Non-vacuity of `C161_font_violated`: a constant column. -/
example : ∃ (draw : Nat → CornerFig → Except PyErr Unit) (s : Samples) (axes : List (Text × Text)) (fig : CornerFig), axes.mapM (pickColumn s) = .ok fig ∧ draw 12 fig = .error .valueError :=
  ⟨fun _ _ => .error .valueError, [("k1".toList, [some 1, some 1])], [("k1".toList, "K".toList)], [("K".toList, [some 1, some 1])], by simp only [List.mapM_cons, pickColumn, Dict.get?]; rfl, rfl⟩

end Radvel
