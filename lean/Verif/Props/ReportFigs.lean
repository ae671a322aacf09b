import Verif.Lemmas.ReportFigs
import Mathlib.Tactic.FinCases

/-!
# C152: the report shows the figures that were made
-/

namespace Radvel

/-- **C152**, without `saveplot` and removed files: after any history of drawing and sampling, whatever drawings failed, the report shows the last RV figure, the last corner plot and the last plot of derived parameters,
in this order and each under its own caption, those that have been drawn and no others; without any drawing there is no report. Missing: figures saved where the user says, see below. -/
theorem C152_figures_partial (out : Path) (base : Text) (h : List FigCmd) (hs : Standard h) :
    reportFigures out base (figRun out base h .empty) =
      if drawings 0 h = [] then .error .noSectionError
      else .ok (reported.filterMap fun x => (lastOf (drawings 0 h) x.2).map fun d => (x.1, d)) := by
  have := figRun_inv out base h [] .empty hs (empty_inv out base)
  have hi := this.1
  rw [List.nil_append] at hi
  exact hi.report

example : Standard [.plots none [(.rv, none), (.corner, some .valueError)], .sample, .plots none [(.corner, none)]] := by
  intro c hc
  fin_cases hc
  · exact .inl ⟨_, rfl⟩
  · exact .inr rfl
  · exact .inl ⟨_, rfl⟩

example : drawings 0 [.plots none [(.rv, none), (.corner, some .valueError)], .sample, .plots none [(.corner, none)]] = [⟨.rv, 0⟩, ⟨.corner, 1⟩] := by decide

/-- **C152**: the figures in a report are not older than the last drawing of their type: without new samples after it, they come from the newest samples. -/
theorem C152_current_partial (out : Path) (base : Text) (h : List FigCmd) (hs : Standard h) (types : List PlotType) (f : Text) (t : PlotType) (d : Drawing) (hf : (f, t) ∈ reported) (ht : t ∈ types)
    (figs : List (Text × Drawing)) (hr : reportFigures out base (figRun out base (h ++ [.plots none (types.map fun u => (u, none))]) .empty) = .ok figs) :
    (f, d) ∈ figs ↔ d = ⟨t, samplings h⟩ := by
  have hs' : Standard (h ++ [.plots none (types.map fun u => (u, none))]) := by
    intro c hc
    rcases List.mem_append.1 hc with hc | hc
    · exact hs c hc
    · exact .inl ⟨_, List.mem_singleton.1 hc⟩
  rw [C152_figures_partial out base _ hs'] at hr
  have hdr : ∀ (n : Nat) (h : List FigCmd), drawings n (h ++ [.plots none (types.map fun u => (u, none))]) = drawings n h ++ types.map fun u => ⟨u, n + samplings h⟩ := by
    intro n h
    have hall : drawn (types.map fun u => (u, (none : Option PyErr))) = types := by
      clear * -
      unfold drawn
      induction types with
      | nil => rfl
      | cons t l ih => simpa using ih
    induction h generalizing n with
    | nil => simp [drawings, samplings, hall]
    | cons c h ih =>
      cases c with
      | plots kw l => simp [drawings, samplings, ih]
      | sample => simp [drawings, samplings, ih, Nat.add_assoc, Nat.add_comm 1]
      | remove p => simp [drawings, samplings, ih]
  have hlast : ∀ (l : List PlotType) (n : Nat) (ds : List Drawing), t ∈ l → lastOf (ds ++ l.map fun u => ⟨u, n⟩) t = some ⟨t, n⟩ := by
    intro l n ds hm
    unfold lastOf
    rw [List.filter_append, List.getLast?_append]
    have : (l.map fun u => (⟨u, n⟩ : Drawing)).filter (fun d => d.type = t) = List.replicate (l.count t) ⟨t, n⟩ := by
      clear hm
      induction l with
      | nil => rfl
      | cons u l ih =>
        by_cases e : u = t
        · subst e
          simp [ih, List.replicate_succ]
        · have : t ≠ u := fun x => e x.symm
          simp [ih, e, List.count_cons_of_ne]
    rw [this]
    have hc : 0 < l.count t := List.count_pos_iff.2 hm
    obtain ⟨k, hk⟩ : ∃ k, l.count t = k + 1 := ⟨l.count t - 1, by omega⟩
    rw [hk, List.getLast?_replicate]
    rfl
  rw [hdr, Nat.zero_add] at hr
  have hne : ¬ (drawings 0 h ++ types.map fun u => (⟨u, samplings h⟩ : Drawing)) = [] := by
    intro e
    have := (List.append_eq_nil_iff.1 e).2
    rw [List.map_eq_nil_iff] at this
    rw [this] at ht
    cases ht
  rw [if_neg hne] at hr
  have hr := (Except.ok.inj hr).symm
  subst hr
  have hl := hlast types (samplings h) (drawings 0 h) ht
  rw [List.mem_filterMap]
  constructor
  · rintro ⟨⟨f', t'⟩, hm, he⟩
    rcases hx : lastOf (drawings 0 h ++ types.map fun u => (⟨u, samplings h⟩ : Drawing)) t' with _ | d'
    · simp [hx] at he
    · simp only [hx, Option.map_some, Option.some.injEq, Prod.mk.injEq] at he
      obtain ⟨rfl, rfl⟩ := he
      have htt : t' = t := by
        clear hx hl hne hlast hdr ht
        revert hm hf
        simp only [reported, List.mem_cons, Prod.mk.injEq, List.not_mem_nil, or_false]
        rintro (⟨rfl, rfl⟩ | ⟨rfl, rfl⟩ | ⟨rfl, rfl⟩) (⟨h1, rfl⟩ | ⟨h1, rfl⟩ | ⟨h1, rfl⟩) <;> first | rfl | (revert h1; decide)
      subst htt
      rw [hl] at hx
      exact (Option.some.inj hx).symm
  · rintro rfl
    exact ⟨(f, t), hf, by simp [hl]⟩

example : Standard [.plots none [(.rv, none)], .sample] ∧ (("corner".toList, PlotType.corner) ∈ reported) ∧ PlotType.corner ∈ [PlotType.corner] ∧
    ∃ figs, reportFigures [] [] (figRun [] [] ([.plots none [(.rv, none)], .sample] ++ [.plots none ([PlotType.corner].map fun u => (u, none))]) .empty) = .ok figs :=
  ⟨fun c hc => by fin_cases hc <;> simp, by decide, by decide, [("rv_multipanel".toList, ⟨.rv, 0⟩), ("corner".toList, ⟨.corner, 1⟩)], by decide +kernel⟩

/-- C152 fails for samples made after drawing: the figures stay as they are, and nothing in the report tells that they show another run than the tables. For every history that ends in drawing a corner
plot. -/
theorem C152_stale_violated (out : Path) (base : Text) (h : List FigCmd) (hs : Standard h) :
    ∃ figs, reportFigures out base (figRun out base (h ++ [.plots none [(.corner, none)], .sample]) .empty) = .ok figs ∧ ("corner".toList, ⟨.corner, samplings h⟩) ∈ figs ∧
      (figRun out base (h ++ [.plots none [(.corner, none)], .sample]) .empty).samples = samplings h + 1 := by
  have hs1 : Standard (h ++ [.plots none ([PlotType.corner].map fun u => (u, none))]) := by
    intro c hc
    rcases List.mem_append.1 hc with hc | hc
    · exact hs c hc
    · exact .inl ⟨_, List.mem_singleton.1 hc⟩
  have h0 := figRun_inv out base h [] .empty hs (empty_inv out base)
  have h1 := figRun_inv out base _ [] .empty hs1 (empty_inv out base)
  have e : figRun out base (h ++ [.plots none [(.corner, none)], .sample]) .empty =
      { figRun out base (h ++ [.plots none ([PlotType.corner].map fun u => (u, none))]) .empty with samples := (figRun out base (h ++ [.plots none ([PlotType.corner].map fun u => (u, none))]) .empty).samples + 1 } := by
    simp [figRun, figStep]
  have er : reportFigures out base (figRun out base (h ++ [.plots none [(.corner, none)], .sample]) .empty) =
      reportFigures out base (figRun out base (h ++ [.plots none ([PlotType.corner].map fun u => (u, none))]) .empty) := by rw [e]; rfl
  rw [er]
  rcases hr : reportFigures out base (figRun out base (h ++ [.plots none ([PlotType.corner].map fun u => (u, none))]) .empty) with err | figs
  · rw [h1.1.report] at hr
    split at hr
    · rename_i hz
      exfalso
      rw [List.nil_append] at hz
      have : ∀ (n : Nat) (h : List FigCmd), drawings n (h ++ [.plots none ([PlotType.corner].map fun u => (u, none))]) ≠ [] := by
        intro n h
        induction h generalizing n with
        | nil => simp [drawings, drawn]
        | cons c h ih => cases c <;> simp [drawings] at * <;> intros <;> exact ih _
      exact this _ _ hz
    · cases hr
  · refine ⟨figs, hr, (C152_current_partial out base h hs [.corner] "corner".toList .corner _ (by decide) (by decide) figs hr).2 rfl, ?_⟩
    rw [e]
    have : samplings (h ++ [.plots none ([PlotType.corner].map fun u => (u, none))]) = samplings h := by
      clear * -
      induction h with
      | nil => rfl
      | cons c h ih => cases c <;> simpa [samplings] using ih
    show (figRun out base (h ++ [.plots none ([PlotType.corner].map fun u => (u, none))]) .empty).samples + 1 = _
    rw [h1.2, this]
    show 0 + samplings h + 1 = _
    omega

/-- C152 fails with `saveplot`: an RV figure saved in the output directory under a name of the user's is not in the report. -/
theorem C152_renamed_violated (out : Path) (base name : Text) (hn : ∀ t : PlotType, name ≠ base ++ (plotSuffix t).toList) :
    reportFigures out base (figRun out base [.plots (some ⟨out, name⟩) [(.rv, none)]] .empty) = .ok [] := by
  have : reportFigures out base (figRun out base [.plots (some ⟨out, name⟩) [(.rv, none)]] .empty) = .ok (texFigures base [(name, ⟨.rv, 0⟩)]) := by
    simp [reportFigures, figRun, figStep, figLoop, figPlace, FigWorld.empty, Dict.set, copyDep, Dict.get?, bind, Except.bind, pure, Except.pure]
  rw [this, figtypes_reported]
  simp only [reported, List.filterMap_cons, List.filterMap_nil, Dict.get?_cons, Dict.get?_nil]
  have h1 := hn .rv
  have h2 := hn .corner
  have h3 := hn .derived
  simp [stdName, h1, h2, h3]

example : ∀ t : PlotType, "rv.pdf".toList ≠ "k2".toList ++ (plotSuffix t).toList := by
  intro t
  cases t <;> decide

/-- C152 fails with `saveplot`: an RV figure saved in another directory makes the report impossible. -/
theorem C152_elsewhere_violated (out dir : Path) (base name : Text) (hd : dir ≠ out) :
    reportFigures out base (figRun out base [.plots (some ⟨dir, name⟩) [(.rv, none)]] .empty) = .error .fileNotFoundError := by
  have : ¬ (⟨dir, name⟩ : Place) = ⟨out, name⟩ := fun e => hd (congrArg Place.dir e)
  simp [reportFigures, figRun, figStep, figLoop, figPlace, FigWorld.empty, Dict.set, copyDep, Dict.get?, bind, Except.bind, this]

example : (["home"] : Path) ≠ ["home", "k2"] := by decide

/-- C152 fails with `saveplot`: if a new RV figure is saved in another directory under the usual name, the report shows the old one. -/
theorem C152_old_violated (out dir : Path) (base : Text) (hd : dir ≠ out) :
    reportFigures out base (figRun out base [.plots none [(.rv, none)], .sample, .plots (some ⟨dir, base ++ (plotSuffix .rv).toList⟩) [(.rv, none)]] .empty) = .ok [("rv_multipanel".toList, ⟨.rv, 0⟩)] := by
  have hne : ¬ (⟨out, base ++ (plotSuffix .rv).toList⟩ : Place) = ⟨dir, base ++ (plotSuffix .rv).toList⟩ := fun e => hd (congrArg Place.dir e).symm
  have hne' : ¬ (⟨dir, base ++ (plotSuffix .rv).toList⟩ : Place) = ⟨out, base ++ (plotSuffix .rv).toList⟩ := fun e => hd (congrArg Place.dir e)
  have : reportFigures out base (figRun out base [.plots none [(.rv, none)], .sample, .plots (some ⟨dir, base ++ (plotSuffix .rv).toList⟩) [(.rv, none)]] .empty) =
      .ok (texFigures base [(stdName base .rv, ⟨.rv, 0⟩)]) := by
    simp [reportFigures, figRun, figStep, figLoop, figPlace, FigWorld.empty, Dict.set, copyDep, bind, Except.bind, pure, Except.pure, stdName, hne, Dict.get?]
  rw [this, figtypes_reported]
  have h2 : ¬ stdName base .rv = stdName base .corner := fun e => by cases stdName_inj e
  have h3 : ¬ stdName base .rv = stdName base .derived := fun e => by cases stdName_inj e
  simp [reported, h2, h3]

/-- C152 fails with `saveplot`: an RV figure saved under the name of the corner plot is shown as the posterior distributions. -/
theorem C152_caption_violated (out : Path) (base : Text) :
    reportFigures out base (figRun out base [.plots (some ⟨out, base ++ (plotSuffix .corner).toList⟩) [(.rv, none)]] .empty) = .ok [("corner".toList, ⟨.rv, 0⟩)] := by
  have : reportFigures out base (figRun out base [.plots (some ⟨out, base ++ (plotSuffix .corner).toList⟩) [(.rv, none)]] .empty) = .ok (texFigures base [(stdName base .corner, ⟨.rv, 0⟩)]) := by
    simp [reportFigures, figRun, figStep, figLoop, figPlace, FigWorld.empty, Dict.set, copyDep, bind, Except.bind, pure, Except.pure, stdName, Dict.get?]
  rw [this, figtypes_reported]
  have h2 : ¬ stdName base .corner = stdName base .rv := fun e => by cases stdName_inj e
  have h3 : ¬ stdName base .corner = stdName base .derived := fun e => by cases stdName_inj e
  simp [reported, h2, h3]

/-- C152 fails when a figure that the report does not show has been removed: there is no report. Here an RV figure and the plot of autocorrelation times were drawn, and the latter was removed. -/
theorem C152_unused_violated (out : Path) (base : Text) :
    reportFigures out base (figRun out base [.plots none [(.rv, none), (.auto, none)], .remove ⟨out, base ++ (plotSuffix .auto).toList⟩] .empty) = .error .fileNotFoundError := by
  have h1 : ¬ (⟨out, base ++ (plotSuffix .rv).toList⟩ : Place) = ⟨out, base ++ (plotSuffix .auto).toList⟩ := fun e => by cases stdName_inj (congrArg Place.name e)
  have h2 : ¬ (⟨out, base ++ (plotSuffix .auto).toList⟩ : Place) = ⟨out, base ++ (plotSuffix .rv).toList⟩ := fun e => by cases stdName_inj (congrArg Place.name e)
  have h3 : ¬ (plotSuffix .rv).toList = (plotSuffix .auto).toList := by decide
  simp [reportFigures, figRun, figStep, figLoop, figPlace, FigWorld.empty, Dict.set, Dict.erase, copyDep, bind, Except.bind, Dict.get?, h3]

end Radvel
