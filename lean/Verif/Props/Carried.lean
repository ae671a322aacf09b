import Verif.Lemmas.Carried
import Verif.Props.Provenance
import Verif.Props.Complete

/-!
# C164: the masses in the phase panels

"The masses written in the phase panels of the RV figure belong to the posterior whose orbits are drawn." All statements are about pipelines whose commands have succeeded so far (`Completed`).
-/

namespace Radvel

/-- C164, what the RV figure shows: the orbits of the last fit or MCMC run, and masses exactly if parameters were derived from MCMC samples since the last fit, from the samples used in the last such derivation. Missing: that these are the
samples of the run whose orbits are drawn, see `C164_resample_violated` and `C164_refit_violated`. -/
theorem C164_shown_partial {pre : Text} (hp : PlainPrefix pre) {w : World} (hw : Completed pre w) {types : List PlotType} {request : Text} {o : Oracle} {w' : World}
    (h : plotsCmd pre types request o w = (.ok (), w')) (hrv : .rv ∈ types) :
    ∃ orbits, lastFitOrMcmc w.log = some orbits ∧ w'.files.get? (pathOf pre "_rv_multipanel.pdf") = some (.rvFigure orbits (massesSinceFit w.log)) := by
  have hcar := carried_of_completed hp hw
  obtain ⟨cfg, h0, hc, hk, hs, hf⟩ := full_of_completed hp hw
  unfold plotsCmd at h
  obtain ⟨c, h1, h⟩ := load_then h
  rw [h0] at h1
  cases h1
  obtain ⟨b, hb, h⟩ := lift_then (work_then h)
  have hfit : Fitted w.log := by
    have hm : "fit".toList ∈ cfg.keys := by
      unfold getBoolean getOption at hb
      rcases hg : cfg.get? "fit".toList with _ | x
      · simp only [hg] at hb
        cases hb
      · exact Dict.mem_keys_of_get? _ hg
    obtain ⟨ev, he, hsec⟩ := hk _ hm
    exact fitted_of ⟨ev, he, hsec⟩
  obtain ⟨_, _, h⟩ := still_then (still_assert _) h
  obtain ⟨path, hpa, h⟩ := lift_then h
  rw [getOption_value (hs.fit hfit).2 (by decide)] at hpa
  cases hpa
  obtain ⟨post, hpo, h⟩ := still_then (still_readPost _) h
  have hpo' := readPost_ok hpo
  obtain ⟨orbits, hl⟩ := lastFitOrMcmc_some (.inl hfit)
  obtain ⟨d, hd⟩ := hf.post orbits hl
  have hcm := hcar hfit _ _ hpo'
  rw [hd] at hpo'
  have e := Option.some.inj hpo'
  injection e with e1 e2
  refine ⟨orbits, hl, ?_⟩
  rw [plotLoop_rv h, if_pos hrv]
  unfold plotContent showsMasses
  rw [hcm, ← e1]
  rcases hms : massesSinceFit w.log with _ | m
  · rfl
  · have hder := (hs.derive (massesSinceFit_derived hms)).2
    have : hasOption cfg "derive".toList "chainfile".toList = true := by
      unfold Config.value at hder
      unfold hasOption
      rcases hg : cfg.get? "derive".toList with _ | x
      · rw [hg] at hder; cases hder
      · rw [hg] at hder
        exact (Dict.has_iff _ _).2 (Dict.mem_keys_of_get? _ hder)
    simp only [this, Option.isSome_some, Bool.and_self, if_true]

/-- C164 right after parameters were derived from the run whose orbits are drawn: the masses belong to it. -/
theorem C164_derived_partial {pre : Text} (hp : PlainPrefix pre) {w w1 : World} (hw : Completed pre w) {request : Text} {stellar : Bool} {o : Oracle} {u : Used} (hder : deriveCmd pre request stellar o w = (.ok (some u), w1))
    (hsam : u.sampler = "mcmc".toList) (hsame : lastFitOrMcmc w.log = lastMcmc w.log) {types : List PlotType} {request' : Text} {o' : Oracle} {w' : World}
    (h : plotsCmd pre types request' o' w1 = (.ok (), w')) (hrv : .rv ∈ types) :
    ∃ s, lastMcmc w.log = some s ∧ w'.files.get? (pathOf pre "_rv_multipanel.pdf") = some (.rvFigure s (some s)) := by
  have hw1 : Completed pre w1 := .step w w1 (.derive request stellar) o hw trivial trivial (by show void _ _ = _; unfold void; rw [bind_of_ok hder]; rfl)
  obtain ⟨_, _, hl, _, hm, _⟩ := derive_origin hp hw hder
  obtain ⟨orbits, e1, e2⟩ := C164_shown_partial hp hw1 h hrv
  obtain ⟨hm1, hm2⟩ := hm hsam
  rw [hl] at e1 e2
  have e3 : massesSinceFit (.derive u.chains :: w.log) = some u.chains := by
    rw [massesSinceFit, if_pos (lastMcmc_mem hm1).2]
  have e4 : lastFitOrMcmc w.log = some orbits := e1
  rw [hsame, hm1] at e4
  cases e4
  rw [e3] at e2
  exact ⟨u.chains, hm1, e2⟩

/-- C164 is false after sampling again: an MCMC run keeps the masses of the posterior it started from, so the figure shows the orbits of the new run with the masses of an older one, until parameters are derived again. -/
theorem C164_resample_violated {pre : Text} (hp : PlainPrefix pre) {w w1 : World} (hw : Completed pre w) {s : Source} (hs : massesSinceFit w.log = some s) {num : McmcNumbers} (h1 : (Command.mcmc num).Plain)
    (h2 : (Command.mcmc num).Clean) {o : Oracle} {start : Option Source} (hm : mcmcCmd pre num o w = (.ok start, w1)) {types : List PlotType} {request : Text} {o' : Oracle} {w' : World}
    (h : plotsCmd pre types request o' w1 = (.ok (), w')) (hrv : .rv ∈ types) :
    w'.files.get? (pathOf pre "_rv_multipanel.pdf") = some (.rvFigure ⟨.mcmc, w.clock⟩ (some s)) ∧ s ≠ ⟨.mcmc, w.clock⟩ := by
  have hw1 : Completed pre w1 := .step w w1 (.mcmc num) o hw h1 h2 (by show void _ _ = _; unfold void; rw [bind_of_ok hm]; rfl)
  obtain ⟨orbits, e1, e2⟩ := C164_shown_partial hp hw1 h hrv
  rw [(mcmc_log hm).1] at e1 e2
  cases e1
  have e3 : massesSinceFit (.mcmc w.clock :: w.log) = some s := hs
  rw [e3] at e2
  refine ⟨e2, ?_⟩
  have hb := fresh_of_completed hp hw
  have key : ∀ log : List Event, massesSinceFit log = some s → Event.derive s ∈ log := by
    intro log hlog
    induction log with
    | nil => cases hlog
    | cons ev log ih =>
      cases ev with
      | fit n => cases hlog
      | derive x =>
        rw [massesSinceFit] at hlog
        split_ifs at hlog with hx
        · cases hlog; simp
        · simp [ih hlog]
      | _ => exact List.mem_cons_of_mem _ (ih hlog)
  have := hb _ (key _ hs) s.run rfl
  rintro rfl
  exact absurd this (lt_irrefl _)

/-- C164 is false after fitting again: parameters derived then come from the samples of the older MCMC run, while the orbits are those of the new fit. -/
theorem C164_refit_violated {pre : Text} (hp : PlainPrefix pre) {w w1 w2 : World} (hw : Completed pre w) {o : Oracle} (hfit : fitCmd pre o w = (.ok (), w1)) {request : Text} {stellar : Bool} {o1 : Oracle} {u : Used}
    (hder : deriveCmd pre request stellar o1 w1 = (.ok (some u), w2)) (hsam : u.sampler = "mcmc".toList) {types : List PlotType} {request' : Text} {o' : Oracle} {w' : World}
    (h : plotsCmd pre types request' o' w2 = (.ok (), w')) (hrv : .rv ∈ types) :
    ∃ n, w'.files.get? (pathOf pre "_rv_multipanel.pdf") = some (.rvFigure ⟨.fit, w.clock⟩ (some ⟨.mcmc, n⟩)) := by
  have hw1 : Completed pre w1 := .step w w1 .fit o hw trivial trivial hfit
  have hw2 : Completed pre w2 := .step w1 w2 (.derive request stellar) o1 hw1 trivial trivial (by show void _ _ = _; unfold void; rw [bind_of_ok hder]; rfl)
  obtain ⟨_, _, hl, _, hm, _⟩ := derive_origin hp hw1 hder
  obtain ⟨orbits, e1, e2⟩ := C164_shown_partial hp hw2 h hrv
  obtain ⟨hm1, hm2⟩ := hm hsam
  rw [hl] at e1 e2
  have e4 : lastFitOrMcmc w1.log = some orbits := e1
  rw [(fit_log hfit).1] at e4
  cases e4
  have e3 : massesSinceFit (.derive u.chains :: w1.log) = some u.chains := by
    rw [massesSinceFit, if_pos (lastMcmc_mem hm1).2]
  rw [e3] at e2
  refine ⟨u.chains.run, ?_⟩
  rw [e2]
  have := (lastMcmc_mem hm1).2
  rcases hu : u.chains with ⟨st, n⟩
  rw [hu] at this
  simp only at this
  rw [this]

/-- The pipelines of the theorems succeed. -/
example : allSucceed [.fit, .mcmc someNumbers, .derive "auto".toList true, .plots [.rv] "auto".toList, .mcmc someNumbers, .plots [.rv] "auto".toList] emptyWorld = true := by decide +kernel

example : (runCommands [.fit, .mcmc someNumbers, .derive "auto".toList true, .plots [.rv] "auto".toList] emptyWorld).files.get? (pathOf somePrefix "_rv_multipanel.pdf") = some (.rvFigure ⟨.mcmc, 1⟩ (some ⟨.mcmc, 1⟩)) := by
  decide +kernel

example : massesSinceFit (runCommands [.fit, .mcmc someNumbers, .derive "auto".toList true] emptyWorld).log = some ⟨.mcmc, 1⟩ := by decide +kernel

example : (runCommands [.fit, .mcmc someNumbers, .derive "auto".toList true, .mcmc someNumbers, .plots [.rv] "auto".toList] emptyWorld).files.get? (pathOf somePrefix "_rv_multipanel.pdf") =
    some (.rvFigure ⟨.mcmc, 2⟩ (some ⟨.mcmc, 1⟩)) := by decide +kernel

example : allSucceed [.fit, .mcmc someNumbers, .fit, .derive "auto".toList true, .plots [.rv] "auto".toList] emptyWorld = true := by decide +kernel

example : (runCommands [.fit, .mcmc someNumbers, .fit, .derive "auto".toList true, .plots [.rv] "auto".toList] emptyWorld).files.get? (pathOf somePrefix "_rv_multipanel.pdf") =
    some (.rvFigure ⟨.fit, 2⟩ (some ⟨.mcmc, 1⟩)) := by decide +kernel

end Radvel
