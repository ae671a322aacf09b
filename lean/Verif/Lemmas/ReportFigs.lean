import Verif.Spec.ReportFigs
import Verif.Lemmas.Dict
import Mathlib.Tactic.Common

namespace Radvel

/-- The file of a figure if the user names none. -/
def stdName (base : Text) (t : PlotType) : Text := base ++ (plotSuffix t).toList

theorem figPlace_none (out : Path) (base : Text) (t : PlotType) : figPlace out base none t = ⟨out, stdName base t⟩ := by
  cases t <;> rfl

theorem stdName_inj {base : Text} {t u : PlotType} (h : stdName base t = stdName base u) : t = u := by
  have := List.append_cancel_left h
  revert this
  cases t <;> cases u <;> decide

theorem lastOf_append (ds : List Drawing) (d : Drawing) (t : PlotType) : lastOf (ds ++ [d]) t = if t = d.type then some d else lastOf ds t := by
  unfold lastOf
  by_cases h : t = d.type
  · simp [List.filter_append, h]
  · have : ¬ d.type = t := fun e => h e.symm
    simp [List.filter_append, h, this]

/-- The state after the figures `ds` have been drawn at their usual places. -/
structure FigInv (out : Path) (base : Text) (ds : List Drawing) (w : FigWorld) : Prop where
  nodup : (Dict.keys w.saved).Nodup
  saved : ∀ t, Dict.get? w.saved t = (lastOf ds t).map fun _ => ⟨out, stdName base t⟩
  files : ∀ t, Dict.get? w.files ⟨out, stdName base t⟩ = lastOf ds t

theorem FigInv.draw {out : Path} {base : Text} {ds : List Drawing} {w : FigWorld} (h : FigInv out base ds w) (t : PlotType) (n : Nat) :
    FigInv out base (ds ++ [⟨t, n⟩])
      { w with files := Dict.set w.files ⟨out, stdName base t⟩ ⟨t, n⟩, saved := Dict.set w.saved t ⟨out, stdName base t⟩ } where
  nodup := Dict.nodup_keys_set _ _ _ h.nodup
  saved u := by
    rw [lastOf_append]
    by_cases e : u = t
    · subst e; simp [Dict.get?_set_self]
    · simp only [e, if_false]
      rw [Dict.get?_set_ne _ _ (fun x => e x.symm)]
      exact h.saved u
  files u := by
    rw [lastOf_append]
    by_cases e : u = t
    · subst e; simp [Dict.get?_set_self]
    · simp only [e, if_false]
      rw [Dict.get?_set_ne]
      · exact h.files u
      · intro x
        exact e (stdName_inj (congrArg Place.name x)).symm

theorem figLoop_inv (out : Path) (base : Text) : ∀ (l : List (PlotType × Option PyErr)) (ds : List Drawing) (w : FigWorld), FigInv out base ds w →
    FigInv out base (ds ++ (drawn l).map fun t => ⟨t, w.samples⟩) (figLoop out base none l w).1 ∧ (figLoop out base none l w).1.samples = w.samples
  | [], ds, w, h => by simpa [drawn, figLoop] using h
  | (t, some e) :: l, ds, w, h => by simpa [drawn, figLoop] using h
  | (t, none) :: l, ds, w, h => by
    have h' := h.draw t w.samples
    have := figLoop_inv out base l _ _ h'
    have hp : popSaveplot none t = none := by unfold popSaveplot; split <;> rfl
    simp only [figLoop, figPlace_none, hp]
    refine ⟨?_, this.2⟩
    have := this.1
    simpa [drawn, List.append_assoc] using this

theorem figRun_inv (out : Path) (base : Text) : ∀ (h : List FigCmd) (ds : List Drawing) (w : FigWorld), Standard h → FigInv out base ds w →
    FigInv out base (ds ++ drawings w.samples h) (figRun out base h w) ∧ (figRun out base h w).samples = w.samples + samplings h
  | [], ds, w, _, hw => by simpa [drawings, figRun, samplings] using hw
  | c :: h, ds, w, hs, hw => by
    have hs' : Standard h := fun x hx => hs x (List.mem_cons_of_mem _ hx)
    rcases hs c List.mem_cons_self with ⟨l, rfl⟩ | rfl
    · have h1 := figLoop_inv out base l ds w hw
      have := figRun_inv out base h _ _ hs' h1.1
      rw [h1.2] at this
      simpa [drawings, figRun, figStep, samplings, List.append_assoc] using this
    · have h1 : FigInv out base ds { w with samples := w.samples + 1 } := ⟨hw.nodup, hw.saved, hw.files⟩
      have := figRun_inv out base h _ _ hs' h1
      refine ⟨by simpa [drawings, figRun, figStep] using this.1, ?_⟩
      have := this.2
      simp only [figRun, List.foldl_cons, figStep, samplings] at this ⊢
      rw [this]; omega

theorem empty_inv (out : Path) (base : Text) : FigInv out base [] FigWorld.empty := ⟨by simp [FigWorld.empty, Dict.keys], fun _ => rfl, fun _ => rfl⟩

theorem copyDeps (out : Path) (base : Text) (files : Dict Place Drawing) : ∀ (ts : List PlotType) (temp : Dict Text Drawing),
    (∀ t ∈ ts, (Dict.get? files ⟨out, stdName base t⟩).isSome) →
    ∃ temp', (ts.map fun t => (⟨out, stdName base t⟩ : Place)).foldlM (copyDep out files) temp = .ok temp' ∧
      ∀ t, Dict.get? temp' (stdName base t) = if t ∈ ts then Dict.get? files ⟨out, stdName base t⟩ else Dict.get? temp (stdName base t)
  | [], temp, _ => ⟨temp, rfl, fun t => by simp⟩
  | t :: ts, temp, hs => by
    rcases hd : Dict.get? files ⟨out, stdName base t⟩ with _ | d
    · have := hs t List.mem_cons_self
      rw [hd] at this; cases this
    · obtain ⟨temp', he, hg⟩ := copyDeps out base files ts (Dict.set temp (stdName base t) d) (fun u hu => hs u (List.mem_cons_of_mem _ hu))
      refine ⟨temp', ?_, fun u => ?_⟩
      · have : copyDep out files temp ⟨out, stdName base t⟩ = .ok (Dict.set temp (stdName base t) d) := by simp [copyDep, hd]
        simp only [List.map_cons, List.foldlM_cons, this, bind, Except.bind]
        exact he
      · rw [hg]
        by_cases hu : u ∈ ts
        · simp [hu]
        · by_cases e : u = t
          · subst e
            simp [hu, hd, Dict.get?_set_self]
          · simp only [hu, if_false, List.mem_cons, e, or_self]
            rw [Dict.get?_set_ne]
            intro x
            exact e (stdName_inj x).symm

theorem figtypes_reported (base : Text) (temp : Dict Text Drawing) :
    texFigures base temp = reported.filterMap fun x => (Dict.get? temp (stdName base x.2)).map fun d => (x.1, d) := by
  have h1 : figInfile base "rv_multipanel".toList = stdName base .rv := by simp [figInfile, stdName, plotSuffix]
  have h2 : figInfile base "corner".toList = stdName base .corner := by simp [figInfile, stdName, plotSuffix]
  have h3 : figInfile base "corner_derived_pars".toList = stdName base .derived := by simp [figInfile, stdName, plotSuffix]
  unfold texFigures figtypes reported
  simp only [List.filterMap_cons, List.filterMap_nil, h1, h2, h3]

theorem lastOf_none {ds : List Drawing} : (∀ t, lastOf ds t = none) ↔ ds = [] := by
  constructor
  · intro h
    rcases ds with _ | ⟨d, ds⟩
    · rfl
    · have := h d.type
      simp [lastOf, List.getLast?_eq_none_iff] at this
  · rintro rfl t; rfl

/-- The figures of a report in a state after drawing `ds`. -/
theorem FigInv.report {out : Path} {base : Text} {ds : List Drawing} {w : FigWorld} (h : FigInv out base ds w) :
    reportFigures out base w = if ds = [] then .error .noSectionError else .ok (reported.filterMap fun x => (lastOf ds x.2).map fun d => (x.1, d)) := by
  have hnil : w.saved = [] ↔ ds = [] := by
    rw [← lastOf_none]
    constructor
    · intro e t
      have := h.saved t
      rw [e] at this
      rcases hl : lastOf ds t with _ | d
      · rfl
      · rw [hl] at this; cases this
    · intro e
      rcases hw : w.saved with _ | ⟨⟨t, p⟩, l⟩
      · rfl
      · have := h.saved t
        rw [e, hw] at this
        simp [Dict.get?] at this
  unfold reportFigures
  by_cases hd : ds = []
  · rw [if_pos (hnil.2 hd), if_pos hd]
  · rw [if_neg (fun x => hd (hnil.1 x)), if_neg hd]
    have hplaces : w.saved.map Prod.snd = (Dict.keys w.saved).map fun t => (⟨out, stdName base t⟩ : Place) := by
      unfold Dict.keys
      rw [List.map_map]
      apply List.map_congr_left
      rintro ⟨t, p⟩ hm
      have h1 := Dict.get?_of_mem_nodup _ h.nodup hm
      have h2 := h.saved t
      rw [h1] at h2
      rcases hl : lastOf ds t with _ | d
      · rw [hl] at h2; cases h2
      · rw [hl] at h2
        simpa using h2
    have hkeys : ∀ t, t ∈ Dict.keys w.saved ↔ (lastOf ds t).isSome := by
      intro t
      rw [← Dict.get?_isSome_iff, h.saved]
      simp
    obtain ⟨temp, he, hg⟩ := copyDeps out base w.files (Dict.keys w.saved) [] (fun t ht => by rw [h.files]; exact (hkeys t).1 ht)
    rw [hplaces, he]
    show Except.ok (texFigures base temp) = _
    rw [figtypes_reported]
    congr 2
    funext x
    rw [hg, h.files]
    by_cases hx : x.2 ∈ Dict.keys w.saved
    · rw [if_pos hx]
    · rw [if_neg hx]
      have : lastOf ds x.2 = none := by
        rcases hl : lastOf ds x.2 with _ | d
        · rfl
        · exact absurd ((hkeys x.2).2 (by rw [hl]; rfl)) hx
      rw [this]
      rfl

end Radvel
