import Verif.Lemmas.PipelineSteady

/-!
# C81: the order of the commands
-/

namespace Radvel

/-- A prefix of paths. -/
def somePrefix : Text := "out/k2-24".toList

theorem somePrefix_plain : PlainPrefix somePrefix := ⟨⟨'o', "ut/k2-24".toList, rfl, by decide⟩, by decide⟩

/-- Nothing fails. -/
def noFailure : Oracle := fun _ => none

/-- Numbers of an MCMC run. -/
def someNumbers : McmcNumbers :=
  { nwalkers := "50".toList, nensembles := "8".toList, maxsteps := "10000".toList, nsteps := "4000".toList, nburn := "500".toList, minafactor := "75".toList, maxarchange := ".03".toList, mintz := "1000".toList,
    maxgr := "1.01".toList }

theorem someNumbers_plain : someNumbers.Plain :=
  ⟨⟨by decide, by decide⟩, ⟨by decide, by decide⟩, ⟨by decide, by decide⟩, ⟨by decide, by decide⟩, ⟨by decide, by decide⟩, ⟨by decide, by decide⟩, ⟨by decide, by decide⟩, ⟨by decide, by decide⟩, ⟨by decide, by decide⟩⟩

/-- An empty directory. -/
def emptyWorld : World := { stat := none, files := [], clock := 0, log := [] }

/-- Running commands one after the other, whether they succeed or not. -/
def runCommands : List Command → World → World
  | [], w => w
  | c :: cs, w => runCommands cs (runCommand somePrefix noFailure c w).2

theorem reachable_runCommands (cs : List Command) {w : World} (hw : Reachable somePrefix False w) (h : ∀ c ∈ cs, c.Plain) : Reachable somePrefix False (runCommands cs w) := by
  induction cs generalizing w with
  | nil => exact hw
  | cons c cs ih => exact ih (.step w c noFailure hw (h c (by simp))) fun c' hc' => h c' (by simp [hc'])

/-- Whether a step succeeds. -/
def succeeds {α : Type} (m : Run α) (w : World) : Bool :=
  match (m w).1 with
  | .ok _ => true
  | .error _ => false

theorem getOption_section {c : Config} {s k v : Text} (h : getOption c s k = .ok v) : s ∈ c.keys := by
  unfold getOption at h
  rcases hd : c.get? s with _ | d
  · rw [hd] at h; cases h
  · exact Dict.mem_keys_of_get? _ hd

theorem getBoolean_section {c : Config} {s k : Text} {b : Bool} (h : getBoolean c s k = .ok b) : s ∈ c.keys := by
  obtain ⟨d, v, hd, _⟩ := (getBoolean_spec c s k b).1 h
  exact Dict.mem_keys_of_get? _ hd

theorem ran_section {c : Config} {s : Text} (h : Ran c s) : s ∈ c.keys := by
  obtain ⟨d, v, hd, _⟩ := h
  exact Dict.mem_keys_of_get? _ hd

theorem fitted_of {log : List Event} (h : ∃ ev ∈ log, ev.section_ = "fit".toList) : Fitted log := by
  obtain ⟨ev, hm, he⟩ := h
  cases ev with
  | fit n => exact ⟨n, hm⟩
  | mcmc n => exact absurd he (by dsimp only [Event.section_]; decide)
  | ns n => exact absurd he (by dsimp only [Event.section_]; decide)
  | ic => exact absurd he (by dsimp only [Event.section_]; decide)
  | derive s => exact absurd he (by dsimp only [Event.section_]; decide)
  | plot t => exact absurd he (by dsimp only [Event.section_]; decide)
  | table t => exact absurd he (by dsimp only [Event.section_]; decide)

theorem mcmc_of {log : List Event} (h : ∃ ev ∈ log, ev.section_ = "mcmc".toList) : ∃ n, Event.mcmc n ∈ log := by
  obtain ⟨ev, hm, he⟩ := h
  cases ev with
  | mcmc n => exact ⟨n, hm⟩
  | fit n => exact absurd he (by dsimp only [Event.section_]; decide)
  | ns n => exact absurd he (by dsimp only [Event.section_]; decide)
  | ic => exact absurd he (by dsimp only [Event.section_]; decide)
  | derive s => exact absurd he (by dsimp only [Event.section_]; decide)
  | plot t => exact absurd he (by dsimp only [Event.section_]; decide)
  | table t => exact absurd he (by dsimp only [Event.section_]; decide)

theorem ns_of {log : List Event} (h : ∃ ev ∈ log, ev.section_ = "ns".toList) : ∃ n, Event.ns n ∈ log := by
  obtain ⟨ev, hm, he⟩ := h
  cases ev with
  | ns n => exact ⟨n, hm⟩
  | mcmc n => exact absurd he (by dsimp only [Event.section_]; decide)
  | fit n => exact absurd he (by dsimp only [Event.section_]; decide)
  | ic => exact absurd he (by dsimp only [Event.section_]; decide)
  | derive s => exact absurd he (by dsimp only [Event.section_]; decide)
  | plot t => exact absurd he (by dsimp only [Event.section_]; decide)
  | table t => exact absurd he (by dsimp only [Event.section_]; decide)

theorem derived_of {log : List Event} (h : ∃ ev ∈ log, ev.section_ = "derive".toList) : Derived log := by
  obtain ⟨ev, hm, he⟩ := h
  cases ev with
  | derive s => exact ⟨s, hm⟩
  | ns n => exact absurd he (by dsimp only [Event.section_]; decide)
  | mcmc n => exact absurd he (by dsimp only [Event.section_]; decide)
  | fit n => exact absurd he (by dsimp only [Event.section_]; decide)
  | ic => exact absurd he (by dsimp only [Event.section_]; decide)
  | plot t => exact absurd he (by dsimp only [Event.section_]; decide)
  | table t => exact absurd he (by dsimp only [Event.section_]; decide)

theorem ic_of {log : List Event} (h : ∃ ev ∈ log, ev.section_ = "ic_compare".toList) : Event.ic ∈ log := by
  obtain ⟨ev, hm, he⟩ := h
  cases ev with
  | ic => exact hm
  | derive s => exact absurd he (by dsimp only [Event.section_]; decide)
  | ns n => exact absurd he (by dsimp only [Event.section_]; decide)
  | mcmc n => exact absurd he (by dsimp only [Event.section_]; decide)
  | fit n => exact absurd he (by dsimp only [Event.section_]; decide)
  | plot t => exact absurd he (by dsimp only [Event.section_]; decide)
  | table t => exact absurd he (by dsimp only [Event.section_]; decide)

theorem plot_of {log : List Event} (h : ∃ ev ∈ log, ev.section_ = "plot".toList) : ∃ t, Event.plot t ∈ log := by
  obtain ⟨ev, hm, he⟩ := h
  cases ev with
  | plot t => exact ⟨t, hm⟩
  | ic => exact absurd he (by dsimp only [Event.section_]; decide)
  | derive s => exact absurd he (by dsimp only [Event.section_]; decide)
  | ns n => exact absurd he (by dsimp only [Event.section_]; decide)
  | mcmc n => exact absurd he (by dsimp only [Event.section_]; decide)
  | fit n => exact absurd he (by dsimp only [Event.section_]; decide)
  | table t => exact absurd he (by dsimp only [Event.section_]; decide)

/-- The sections of the status that a command loads belong to something completed. -/
theorem good_sections {w : World} (hw : Good w) {c : Config} (h : loadStatus w.stat = .ok c) : ∀ s ∈ c.keys, ∃ ev ∈ w.log, ev.section_ = s := by
  obtain ⟨c', h', _, hs⟩ := hw
  rw [h] at h'
  cases h'
  exact hs

theorem sampled_of {log : List Event} {c : Config} (hs : ∀ s ∈ c.keys, ∃ ev ∈ log, ev.section_ = s) {request s : Text} (h : pickSampler request c = .ok s) : Sampled s log := by
  obtain ⟨h1, _, rfl | rfl⟩ := C82_sound request c s h
  · exact .inl ⟨rfl, mcmc_of (hs _ (ran_section h1))⟩
  · exact .inr ⟨rfl, ns_of (hs _ (ran_section h1))⟩

/-- C81: MCMC succeeds only after a fit, and starts from the posterior that the status names; without a fit it raises and changes nothing. -/
theorem C81_mcmc {pre : Text} (hp : PlainPrefix pre) {edits : Prop} {w : World} (hr : Reachable pre edits w) (num : McmcNumbers) (o : Oracle) :
    (∀ start w', mcmcCmd pre num o w = (.ok start, w') → Fitted w.log) ∧ (¬ Fitted w.log → ∃ e, mcmcCmd pre num o w = (.error e, w)) := by
  obtain ⟨c, h0, _, hs⟩ := good_of_reachable hp hr
  have hload : loadR w = (.ok c, w) := by unfold loadR; rw [h0]
  have hneg : ¬ Fitted w.log → ∃ e, mcmcCmd pre num o w = (.error e, w) := by
    intro hnf
    unfold mcmcCmd
    rw [bind_of_ok hload]
    rcases ho : o .setup with _ | e
    · rw [bind_of_ok (show work o .setup w = (.ok (), w) by unfold work; rw [ho])]
      rcases hb : getBoolean c "fit".toList "run".toList with e | b
      · exact ⟨e, bind_of_error (by rfl)⟩
      · exact absurd (fitted_of (hs _ (getBoolean_section hb))) hnf
    · exact ⟨e, bind_of_error (by unfold work; rw [ho])⟩
  refine ⟨?_, hneg⟩
  intro start w' h
  by_contra hnf
  obtain ⟨e, he⟩ := hneg hnf
  rw [he] at h
  simp at h

example : succeeds (mcmcCmd somePrefix someNumbers noFailure) (runCommands [.fit] emptyWorld) = true ∧ succeeds (mcmcCmd somePrefix someNumbers noFailure) (runCommands [.ns []] emptyWorld) = false := by decide +kernel

example : Reachable somePrefix False (runCommands [.fit] emptyWorld) := reachable_runCommands _ (.start [] 0) (by simp [Command.Plain])

/-- C81: the comparison of models succeeds only after a fit; without a fit it raises and changes nothing. -/
theorem C81_ic {pre : Text} (hp : PlainPrefix pre) {edits : Prop} {w : World} (hr : Reachable pre edits w) (text : Text) (o : Oracle) :
    (∀ p w', icCmd text o w = (.ok p, w') → Fitted w.log) ∧ (¬ Fitted w.log → ∃ e, icCmd text o w = (.error e, w)) := by
  obtain ⟨c, h0, _, hs⟩ := good_of_reachable hp hr
  have hload : loadR w = (.ok c, w) := by unfold loadR; rw [h0]
  have hneg : ¬ Fitted w.log → ∃ e, icCmd text o w = (.error e, w) := by
    intro hnf
    unfold icCmd
    rw [bind_of_ok hload]
    rcases ho : o .setup with _ | e
    · rw [bind_of_ok (show work o .setup w = (.ok (), w) by unfold work; rw [ho])]
      rcases hb : getBoolean c "fit".toList "run".toList with e | b
      · exact ⟨e, bind_of_error (by rfl)⟩
      · exact absurd (fitted_of (hs _ (getBoolean_section hb))) hnf
    · exact ⟨e, bind_of_error (by unfold work; rw [ho])⟩
  refine ⟨?_, hneg⟩
  intro start w' h
  by_contra hnf
  obtain ⟨e, he⟩ := hneg hnf
  rw [he] at h
  simp at h

example : succeeds (icCmd "[]".toList noFailure) (runCommands [.fit] emptyWorld) = true ∧ succeeds (icCmd "[]".toList noFailure) (runCommands [.ns []] emptyWorld) = false := by decide +kernel

/-- What each plot needs. -/
def PlotReady (log : List Event) (request : Text) : PlotType → Prop
  | .rv => True
  | .corner => ∃ s, Sampled s log ∧ (request = s ∨ request = "auto".toList)
  | .auto => ∃ n, Event.mcmc n ∈ log
  | .trend => ∃ n, Event.mcmc n ∈ log
  | .derived => Derived log

theorem plotInputs_ready {log : List Event} {c : Config} (hs : ∀ s ∈ c.keys, ∃ ev ∈ log, ev.section_ = s) {request : Text} {d : Option Source} {t : PlotType} {w w' : World} {u : Unit} (h : plotInputs c request d t w = (.ok u, w')) :
    PlotReady log request t := by
  have hmcmc : ∀ t' x w1, t' ≠ PlotType.corner → plotChains c request t' w = (.ok x, w1) → ∃ n, Event.mcmc n ∈ log := by
    intro t' x w1 ht h
    obtain ⟨s, w2, h1, h2⟩ := bind_ok h
    obtain ⟨h3, rfl⟩ := lift_ok h1
    obtain ⟨u, w3, h4, h5⟩ := bind_ok h2
    unfold checkSampler at h4
    rw [if_neg ht] at h4
    obtain ⟨u', w4, h6, h7⟩ := bind_ok h4
    have := (assertR_ok h6).1
    simp only [decide_eq_true_eq] at this
    subst this
    exact mcmc_of (hs _ (ran_section (C82_sound request c _ h3).1))
  cases t with
  | rv => trivial
  | auto =>
    obtain ⟨x, w1, h1, _⟩ := bind_ok h
    exact hmcmc _ x w1 (by decide) h1
  | corner =>
    obtain ⟨x, w1, h1, _⟩ := bind_ok h
    obtain ⟨s, w2, h2, _⟩ := bind_ok h1
    obtain ⟨h3, _⟩ := lift_ok h2
    exact ⟨s, sampled_of hs h3, (C82_sound request c s h3).2.1⟩
  | trend =>
    obtain ⟨x, w1, h1, _⟩ := bind_ok h
    exact hmcmc _ x w1 (by decide) h1
  | derived =>
    obtain ⟨x, w1, h1, _⟩ := bind_ok h
    have := (assertR_ok h1).1
    exact derived_of (hs _ ((Dict.has_iff _ _).1 this))

theorem plotLoop_ready {pre : Text} {log : List Event} {c : Config} (hs : ∀ s ∈ c.keys, ∃ ev ∈ log, ev.section_ = s) {request : Text} {post : Source × Option Source} {o : Oracle} {ts : List PlotType} {w w' : World} {u : Unit}
    (h : plotLoop pre c request post o ts w = (.ok u, w')) : ∀ t ∈ ts, PlotReady log request t := by
  induction ts generalizing w with
  | nil => simp
  | cons t ts ih =>
    obtain ⟨x, w1, h1, h2⟩ := bind_ok h
    obtain ⟨y, w2, h3, _⟩ := bind_ok h1
    intro t' ht'
    rcases List.mem_cons.1 ht' with rfl | ht'
    · exact plotInputs_ready hs h3
    · exact ih h2 t' ht'

/-- C81: plots succeed only after a fit, and each type of plot only after the step it needs; without a fit nothing changes. -/
theorem C81_plots {pre : Text} (hp : PlainPrefix pre) {edits : Prop} {w : World} (hr : Reachable pre edits w) (types : List PlotType) (request : Text) (o : Oracle) :
    (∀ u w', plotsCmd pre types request o w = (.ok u, w') → Fitted w.log ∧ ∀ t ∈ types, PlotReady w.log request t) ∧ (¬ Fitted w.log → ∃ e, plotsCmd pre types request o w = (.error e, w)) := by
  obtain ⟨c, h0, _, hs⟩ := good_of_reachable hp hr
  have hload : loadR w = (.ok c, w) := by unfold loadR; rw [h0]
  have hneg : ¬ Fitted w.log → ∃ e, plotsCmd pre types request o w = (.error e, w) := by
    intro hnf
    unfold plotsCmd
    rw [bind_of_ok hload]
    rcases ho : o .setup with _ | e
    · rw [bind_of_ok (show work o .setup w = (.ok (), w) by unfold work; rw [ho])]
      rcases hb : getBoolean c "fit".toList "run".toList with e | b
      · exact ⟨e, bind_of_error (by rfl)⟩
      · exact absurd (fitted_of (hs _ (getBoolean_section hb))) hnf
    · exact ⟨e, bind_of_error (by unfold work; rw [ho])⟩
  refine ⟨?_, hneg⟩
  intro u w' h
  refine ⟨?_, ?_⟩
  · by_contra hnf
    obtain ⟨e, he⟩ := hneg hnf
    rw [he] at h
    simp at h
  · unfold plotsCmd at h
    rw [bind_of_ok hload] at h
    obtain ⟨_, w1, _, h⟩ := bind_ok h
    obtain ⟨_, w2, _, h⟩ := bind_ok h
    obtain ⟨_, w3, _, h⟩ := bind_ok h
    obtain ⟨_, w4, _, h⟩ := bind_ok h
    obtain ⟨_, w5, _, h⟩ := bind_ok h
    exact plotLoop_ready hs h

example : succeeds (plotsCmd somePrefix [.rv, .auto, .corner, .trend, .derived] "auto".toList noFailure) (runCommands [.fit, .mcmc someNumbers, .derive "auto".toList true] emptyWorld) = true ∧
    succeeds (plotsCmd somePrefix [.trend] "auto".toList noFailure) (runCommands [.fit, .ns []] emptyWorld) = false := by decide +kernel

/-- What each table needs besides samples. -/
def TableReady (log : List Event) : TableType → Prop
  | .icCompare => Event.ic ∈ log
  | .derived => Derived log
  | _ => True

theorem hasOption_section {c : Config} {s k : Text} (h : hasOption c s k = true) : s ∈ c.keys := by
  unfold hasOption at h
  rcases hd : c.get? s with _ | d
  · rw [hd] at h; cases h
  · exact Dict.mem_keys_of_get? _ hd

theorem tableLoop_ready {pre : Text} {log : List Event} {c : Config} (hs : ∀ s ∈ c.keys, ∃ ev ∈ log, ev.section_ = s) {o : Oracle} {used : Used} {flag : Bool} {ts : List TableType} {w w' : World} {u : Unit}
    (h : tableLoop_ pre c o used flag ts w = (.ok u, w')) : ∀ t ∈ ts, TableReady log t := by
  induction ts generalizing w flag with
  | nil => simp
  | cons t ts ih =>
    obtain ⟨x, w1, h1, h2⟩ := bind_ok h
    obtain ⟨_, w2, _, h2⟩ := bind_ok h2
    obtain ⟨_, w3, _, h2⟩ := bind_ok h2
    intro t' ht'
    rcases List.mem_cons.1 ht' with rfl | ht'
    · cases t' with
      | icCompare =>
        obtain ⟨_, w4, h4, _⟩ := bind_ok h1
        exact ic_of (hs _ (hasOption_section (assertR_ok h4).1))
      | derived =>
        obtain ⟨_, w4, h4, _⟩ := bind_ok h1
        exact derived_of (hs _ (hasOption_section (assertR_ok h4).1))
      | params => trivial
      | priors => trivial
      | rv => trivial
      | crit => trivial
    · exact ih h2 t' ht'

theorem results_sampler {c : Config} {s : Text} {w w' : World} {u : Used} (h : readResults c s w = (.ok u, w')) : u.sampler = s := by
  obtain ⟨_, w1, _, h⟩ := bind_ok h
  obtain ⟨_, w2, _, h⟩ := bind_ok h
  obtain ⟨_, w3, _, h⟩ := bind_ok h
  obtain ⟨_, w4, _, h⟩ := bind_ok h
  obtain ⟨_, w5, _, h⟩ := bind_ok h
  rw [pure_run] at h
  cases h
  rfl

/-- C81: tables succeed only after the sampler they use has been run, and each type only after the step it needs; without any samples nothing changes. -/
theorem C81_tables {pre : Text} (hp : PlainPrefix pre) {edits : Prop} {w : World} (hr : Reachable pre edits w) (types : List TableType) (request : Text) (o : Oracle) :
    (∀ u w', tablesCmd pre types request o w = (.ok u, w') → Sampled u.sampler w.log ∧ (request = u.sampler ∨ request = "auto".toList) ∧ ∀ t ∈ types, TableReady w.log t) ∧
      ((∀ s, ¬ Sampled s w.log) → ∃ e, tablesCmd pre types request o w = (.error e, w)) := by
  obtain ⟨c, h0, _, hs⟩ := good_of_reachable hp hr
  have hload : loadR w = (.ok c, w) := by unfold loadR; rw [h0]
  refine ⟨?_, ?_⟩
  · intro u w' h
    unfold tablesCmd at h
    rw [bind_of_ok hload] at h
    obtain ⟨_, w1, _, h⟩ := bind_ok h
    obtain ⟨s, w2, h2, h⟩ := bind_ok h
    obtain ⟨_, w3, _, h⟩ := bind_ok h
    obtain ⟨u', w4, h4, h⟩ := bind_ok h
    obtain ⟨_, w5, h5, h⟩ := bind_ok h
    rw [pure_run] at h
    cases h
    rw [results_sampler h4]
    exact ⟨sampled_of hs (lift_ok h2).1, (C82_sound request c s (lift_ok h2).1).2.1, tableLoop_ready hs h5⟩
  · intro hn
    unfold tablesCmd
    rw [bind_of_ok hload]
    rcases ho : o .setup with _ | e
    · rw [bind_of_ok (show work o .setup w = (.ok (), w) by unfold work; rw [ho])]
      rcases hb : pickSampler request c with e | s
      · exact ⟨e, bind_of_error (by rfl)⟩
      · exact absurd (sampled_of hs hb) (hn s)
    · exact ⟨e, bind_of_error (by unfold work; rw [ho])⟩

example : succeeds (tablesCmd somePrefix [.params, .priors, .rv, .crit, .derived, .icCompare] "auto".toList noFailure) (runCommands [.fit, .mcmc someNumbers, .derive "auto".toList true, .ic "[]".toList] emptyWorld) = true ∧
    succeeds (tablesCmd somePrefix [.rv] "auto".toList noFailure) (runCommands [.fit] emptyWorld) = false := by decide +kernel

/-- C81: parameters are derived only after the sampler they use has been run; without any samples nothing changes. -/
theorem C81_derive {pre : Text} (hp : PlainPrefix pre) {edits : Prop} {w : World} (hr : Reachable pre edits w) (request : Text) (stellar : Bool) (o : Oracle) :
    (∀ u w', deriveCmd pre request stellar o w = (.ok u, w') → ∃ s, Sampled s w.log ∧ (request = s ∨ request = "auto".toList) ∧ ∀ x, u = some x → x.sampler = s) ∧
      ((∀ s, ¬ Sampled s w.log) → ∃ e, deriveCmd pre request stellar o w = (.error e, w)) := by
  obtain ⟨c, h0, _, hs⟩ := good_of_reachable hp hr
  have hload : loadR w = (.ok c, w) := by unfold loadR; rw [h0]
  refine ⟨?_, ?_⟩
  · intro u w' h
    unfold deriveCmd at h
    rw [bind_of_ok hload] at h
    obtain ⟨s, w1, h1, h⟩ := bind_ok h
    refine ⟨s, sampled_of hs (lift_ok h1).1, (C82_sound request c s (lift_ok h1).1).2.1, ?_⟩
    obtain ⟨_, w2, _, h⟩ := bind_ok h
    obtain ⟨_, w3, _, h⟩ := bind_ok h
    obtain ⟨_, w4, _, h⟩ := bind_ok h
    obtain ⟨_, w5, _, h⟩ := bind_ok h
    obtain ⟨_, w6, _, h⟩ := bind_ok h
    split_ifs at h with hst
    · rw [pure_run] at h
      cases h
      intro x hx
      cases hx
    · obtain ⟨_, w7, _, h⟩ := bind_ok h
      obtain ⟨_, w8, _, h⟩ := bind_ok h
      obtain ⟨_, w9, _, h⟩ := bind_ok h
      obtain ⟨_, w10, _, h⟩ := bind_ok h
      obtain ⟨_, w11, _, h⟩ := bind_ok h
      obtain ⟨_, w12, _, h⟩ := bind_ok h
      rw [pure_run] at h
      cases h
      intro x hx
      cases hx
      rfl
  · intro hn
    unfold deriveCmd
    rw [bind_of_ok hload]
    rcases hb : pickSampler request c with e | s
    · exact ⟨e, bind_of_error (by rfl)⟩
    · exact absurd (sampled_of hs hb) (hn s)

example : succeeds (deriveCmd somePrefix "auto".toList true noFailure) (runCommands [.fit, .mcmc someNumbers] emptyWorld) = true ∧ succeeds (deriveCmd somePrefix "auto".toList true noFailure) (runCommands [.fit] emptyWorld) = false := by decide +kernel

theorem checkThat_ok {b : Bool} {e : PyErr} {w w' : World} {u : Unit} (h : checkThat b e w = (.ok u, w')) : b = true ∧ w' = w := by
  cases b
  · simp [checkThat, lift] at h
  · exact ⟨rfl, (Prod.mk.inj h).2.symm⟩

/-- C81: a report is made only after the sampler it uses has been run and some plot has been made. -/
theorem C81_report {pre : Text} (hp : PlainPrefix pre) {edits : Prop} {w : World} (hr : Reachable pre edits w) (request : Text) (o : Oracle) :
    ∀ u w', reportCmd request o w = (.ok u, w') → Sampled u.sampler w.log ∧ (request = u.sampler ∨ request = "auto".toList) ∧ ∃ t, Event.plot t ∈ w.log := by
  obtain ⟨c, h0, _, hs⟩ := good_of_reachable hp hr
  have hload : loadR w = (.ok c, w) := by unfold loadR; rw [h0]
  intro u w' h
  unfold reportCmd at h
  rw [bind_of_ok hload] at h
  obtain ⟨_, w1, _, h⟩ := bind_ok h
  obtain ⟨s, w2, h2, h⟩ := bind_ok h
  obtain ⟨_, w3, _, h⟩ := bind_ok h
  obtain ⟨_, w4, _, h⟩ := bind_ok h
  obtain ⟨u', w5, h5, h⟩ := bind_ok h
  obtain ⟨_, w6, h6, h⟩ := bind_ok h
  obtain ⟨_, w7, _, h⟩ := bind_ok h
  obtain ⟨_, w8, _, h⟩ := bind_ok h
  rw [pure_run] at h
  cases h
  rw [results_sampler h5]
  exact ⟨sampled_of hs (lift_ok h2).1, (C82_sound request c s (lift_ok h2).1).2.1, plot_of (hs _ ((Dict.has_iff _ _).1 (checkThat_ok h6).1))⟩

example : succeeds (reportCmd "auto".toList noFailure) (runCommands [.fit, .mcmc someNumbers, .plots [.rv] "auto".toList] emptyWorld) = true ∧ succeeds (reportCmd "auto".toList noFailure) (runCommands [.fit, .mcmc someNumbers] emptyWorld) = false := by
  decide +kernel

end Radvel
