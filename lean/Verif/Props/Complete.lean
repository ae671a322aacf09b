import Verif.Lemmas.Complete

/-!
# C104, C105: the order of tables, and that later steps find what they need
-/

namespace Radvel

theorem tableText_flag {c : Config} {o : Oracle} {u : Used} {flag : Bool} {t : TableType} {w w' : World} {x : Content × Bool} (h : tableText c o u flag t w = (.ok x, w')) :
    w' = w ∧ x.2 = (if t = .icCompare then false else flag) ∧ (t = .derived → x.1 = .derivedTable (if flag then u.derived else none)) := by
  have hw : w' = w := by
    have := still_tableText c o u flag t w
    rw [h] at this
    exact this
  refine ⟨hw, ?_⟩
  cases t with
  | params =>
    obtain ⟨_, _, h⟩ := still_then (still_maxparams u) h
    replace h := work_then h
    cases h
    exact ⟨rfl, fun h => by cases h⟩
  | priors => replace h := work_then h; cases h; exact ⟨rfl, fun h => by cases h⟩
  | rv => replace h := work_then h; cases h; exact ⟨rfl, fun h => by cases h⟩
  | icCompare =>
    obtain ⟨_, _, h⟩ := still_then (still_assert _) h
    replace h := work_then h
    cases h
    exact ⟨rfl, fun h => by cases h⟩
  | derived =>
    obtain ⟨_, _, h⟩ := still_then (still_assert _) h
    cases flag with
    | true =>
      obtain ⟨_, _, h⟩ := still_then (still_maxparams u) h
      replace h := work_then h
      cases h
      exact ⟨rfl, fun _ => rfl⟩
    | false =>
      cases h
      exact ⟨rfl, fun _ => rfl⟩
  | crit => replace h := work_then h; cases h; exact ⟨rfl, fun h => by cases h⟩

theorem complete_files {sec : Text} {vars : List (Text × Text)} {ev : Event} {w w' : World} {u : Unit} (h : complete sec vars ev w = (.ok u, w')) : w'.files = w.files := by
  unfold complete at h
  split at h
  · cases h
  · cases h
    rfl

theorem tableLoop_files {pre : Text} {c : Config} {o : Oracle} {u : Used} {flag : Bool} {ts : List TableType} {w w' : World} {x : Unit} (h : tableLoop_ pre c o u flag ts w = (.ok x, w')) (hd : .derived ∉ ts) :
    w'.files.get? (pathOf pre "_derived.tex") = w.files.get? (pathOf pre "_derived.tex") := by
  induction ts generalizing w flag with
  | nil => cases h; rfl
  | cons t ts ih =>
    obtain ⟨y, h1, h⟩ := still_then (still_tableText _ _ _ _ _) h
    replace h := write_then h
    obtain ⟨_, w2, h2, h⟩ := bind_ok h
    rw [ih h (by simp at hd; exact hd.2), complete_files h2]
    show Dict.get? (Dict.set _ _ _) _ = _
    rw [get?_path, if_neg]
    intro he
    cases t <;> first | exact absurd he (by decide) | exact hd (by simp)

theorem tableLoop_derived {pre : Text} {c : Config} {o : Oracle} {u : Used} {flag : Bool} {a b : List TableType} {w w' : World} {x : Unit} (h : tableLoop_ pre c o u flag (a ++ .derived :: b) w = (.ok x, w'))
    (hb : .derived ∉ b) : w'.files.get? (pathOf pre "_derived.tex") = some (.derivedTable (if TableType.icCompare ∈ a ∨ flag = false then none else u.derived)) := by
  induction a generalizing w flag with
  | nil =>
    obtain ⟨y, h1, h⟩ := still_then (still_tableText _ _ _ _ _) h
    obtain ⟨_, hfl, hcont⟩ := tableText_flag h1
    replace h := write_then h
    obtain ⟨_, w2, h2, h⟩ := bind_ok h
    rw [tableLoop_files h hb, complete_files h2]
    show Dict.get? (Dict.set _ (pathOf pre "_derived.tex") _) _ = _
    rw [Dict.get?_set_self, hcont rfl]
    cases flag <;> simp
  | cons t a ih =>
    obtain ⟨y, h1, h⟩ := still_then (still_tableText _ _ _ _ _) h
    obtain ⟨_, hfl, _⟩ := tableText_flag h1
    replace h := write_then h
    obtain ⟨_, w2, h2, h⟩ := bind_ok h
    rw [ih h, hfl]
    by_cases ht : t = .icCompare
    · subst ht
      simp
    · have : TableType.icCompare ≠ t := fun h => ht h.symm
      simp [ht, this]

/-- C104: which derived parameters the last table of derived parameters of a command shows: none if the comparison table was requested before it, else those that were joined. -/
theorem C104_derived_partial {pre : Text} {a b : List TableType} {request : Text} {o : Oracle} {w w' : World} {u : Used} (h : tablesCmd pre (a ++ .derived :: b) request o w = (.ok u, w')) (hb : .derived ∉ b) :
    w'.files.get? (pathOf pre "_derived.tex") = some (.derivedTable (if TableType.icCompare ∈ a then none else u.derived)) := by
  obtain ⟨c', h1, h⟩ := load_then h
  replace h := work_then h
  obtain ⟨s, h2, h⟩ := lift_then h
  obtain ⟨_, _, h⟩ := still_then (still_criteria _ _) h
  obtain ⟨u', h3, h⟩ := still_then (still_results _ _) h
  obtain ⟨_, w1, h4, h⟩ := bind_ok h
  cases h
  rw [tableLoop_derived h4 hb]
  rcases hu : u.derived with _ | d
  · simp
  · simp

/-- C104 is false: the same two tables in another order give an empty table of derived parameters. -/
theorem C104_order_violated {pre : Text} (hp : PlainPrefix pre) {w : World} (hw : Completed pre w) (hd : Derived w.log) {request : Text} {o1 o2 : Oracle} {u1 u2 : Used} {w1 w2 : World}
    (h1 : tablesCmd pre [.icCompare, .derived] request o1 w = (.ok u1, w1)) (h2 : tablesCmd pre [.derived, .icCompare] request o2 w = (.ok u2, w2)) :
    w1.files.get? (pathOf pre "_derived.tex") = some (.derivedTable none) ∧ ∃ s, w2.files.get? (pathOf pre "_derived.tex") = some (.derivedTable (some s)) := by
  have e1 := C104_derived_partial (a := [.icCompare]) (b := []) h1 (by simp)
  have e2 := C104_derived_partial (a := []) (b := [.icCompare]) h2 (by simp)
  obtain ⟨s, hs⟩ := lastDerive_some hd
  refine ⟨by simpa using e1, s, ?_⟩
  rw [(tables_origin hp hw h2).2.2.2, hs] at e2
  simpa using e2

/-- A pipeline with all steps. -/
theorem wholePipeline_completed : Completed somePrefix (runCommands [.fit, .mcmc someNumbers, .derive "auto".toList true, .ic "[]".toList, .plots [.rv, .trend, .derived] "auto".toList] emptyWorld) := by
  refine completed_runCommands _ (.start [] 0) ?_ (by decide +kernel)
  intro c hc
  simp only [List.mem_cons, List.not_mem_nil, or_false] at hc
  rcases hc with rfl | rfl | rfl | rfl | rfl
  · exact ⟨trivial, trivial⟩
  · exact ⟨someNumbers_plain, ⟨50, (pyInt_iff _ _).1 (by decide +kernel)⟩, ⟨8, (pyInt_iff _ _).1 (by decide +kernel)⟩⟩
  · exact ⟨trivial, trivial⟩
  · exact ⟨⟨by decide, by decide⟩, trivial⟩
  · exact ⟨trivial, trivial⟩

example : allSucceed [.fit, .mcmc someNumbers, .derive "auto".toList true, .ic "[]".toList, .tables [.icCompare, .derived] "auto".toList, .tables [.derived, .icCompare] "auto".toList] emptyWorld = true := by decide +kernel

theorem post_full {pre : Text} {w : World} {c : Config} (hs : FullS pre c w.log) (hf : FullF pre w.files w.log) (h : Fitted w.log) :
    ∃ src d, getBoolean c "fit".toList "run".toList = .ok true ∧ getOption c "fit".toList "postfile".toList = .ok (pathOf pre "_post_obj.pkl") ∧ readPost (pathOf pre "_post_obj.pkl") w = (.ok (src, d), w) ∧
      lastFitOrMcmc w.log = some src := by
  obtain ⟨src, hl⟩ := lastFitOrMcmc_some (.inl h)
  obtain ⟨d, hd⟩ := hf.post src hl
  exact ⟨src, d, getBoolean_value (hs.fit h).1, getOption_value (hs.fit h).2 (by decide), by unfold readPost; rw [hd], hl⟩

/-- C105: after a fit MCMC finds what it needs; it starts from the posterior of the last fit or MCMC run. -/
theorem C105_mcmc {pre : Text} (hp : PlainPrefix pre) {w : World} (hw : Completed pre w) (h : Fitted w.log) {num : McmcNumbers} (hn : num.Plain) {o : Oracle} (ho : ∀ k, o k = none) :
    ∃ src w', mcmcCmd pre num o w = (.ok (some src), w') ∧ lastFitOrMcmc w.log = some src := by
  obtain ⟨c, h0, hc, hk, hs, hf⟩ := full_of_completed hp hw
  obtain ⟨src, d, h1, h2, h3, h4⟩ := post_full hs hf h
  have hstart : startFrom c true w = (.ok (some (src, d)), w) := by
    unfold startFrom
    rw [if_pos rfl, bind_of_ok (lift_run h2 w), bind_of_ok h3]
    rfl
  have hsave : ∀ files clock, ∃ w', complete "mcmc".toList (mcmcVars pre num) (.mcmc w.clock) { w with files := files, clock := clock } = (.ok (), w') := by
    intro files clock
    obtain ⟨t, e1, _⟩ := save_plain h0 hc (plain_mcmc hp hn)
    refine ⟨{ w with files := files, clock := clock, stat := some t, log := .mcmc w.clock :: w.log }, ?_⟩
    unfold complete
    simp only [e1]
  obtain ⟨w', hw'⟩ := hsave (Dict.set (Dict.set (Dict.set (Dict.set w.files (pathOf pre "_post_summary.csv") .other) (pathOf pre "_post_obj.pkl") (.post ⟨.mcmc, w.clock⟩ ((some (src, d)).bind Prod.snd))) (pathOf pre "_chains.csv.bz2")
      (.chains ⟨.mcmc, w.clock⟩)) (pathOf pre "_autocorr.csv") (.autocorr ⟨.mcmc, w.clock⟩)) (w.clock + 1)
  refine ⟨src, w', ?_, h4⟩
  unfold mcmcCmd
  rw [bind_of_ok (show loadR w = (.ok c, w) by unfold loadR; rw [h0]), bind_of_ok (work_none ho _ _), bind_of_ok (lift_run h1 w), bind_of_ok hstart, bind_of_ok (work_none ho _ _),
    bind_of_ok (show newRun w = (.ok w.clock, _) from rfl), bind_of_ok (show writeR _ _ _ = (.ok (), _) from rfl), bind_of_ok (show writeR _ _ _ = (.ok (), _) from rfl), bind_of_ok (work_none ho _ _),
    bind_of_ok (show writeR _ _ _ = (.ok (), _) from rfl), bind_of_ok (show writeR _ _ _ = (.ok (), _) from rfl), bind_of_ok hw']
  rfl

/-- C105: after a fit the comparison of models finds what it needs; it starts from the posterior of the last fit or MCMC run. -/
theorem C105_ic {pre : Text} (hp : PlainPrefix pre) {w : World} (hw : Completed pre w) (h : Fitted w.log) {text : Text} (ht : PlainValue text) {o : Oracle} (ho : ∀ k, o k = none) :
    ∃ src w', icCmd text o w = (.ok src, w') ∧ lastFitOrMcmc w.log = some src := by
  obtain ⟨c, h0, hc, hk, hs, hf⟩ := full_of_completed hp hw
  obtain ⟨src, d, h1, h2, h3, h4⟩ := post_full hs hf h
  obtain ⟨w', hw', _⟩ := complete_writable (w := w) ⟨hf, c, h0, hc⟩ (plain_ic ht) .ic
  refine ⟨src, w', ?_, h4⟩
  unfold icCmd
  rw [bind_of_ok (show loadR w = (.ok c, w) by unfold loadR; rw [h0]), bind_of_ok (work_none ho _ _), bind_of_ok (lift_run h1 w), bind_of_ok (show assertR true w = (.ok (), w) by rfl), bind_of_ok (lift_run h2 w), bind_of_ok h3,
    bind_of_ok (work_none ho _ _), bind_of_ok hw']
  rfl

/-- C105: after a fit, each plot whose sampler has been run finds what it needs. -/
theorem C105_plots {pre : Text} (hp : PlainPrefix pre) {w : World} (hw : Completed pre w) (h : Fitted w.log) {types : List PlotType} {request : Text} (ht : ∀ t ∈ types, PlotOk w.log request t) {o : Oracle}
    (ho : ∀ k, o k = none) : ∃ w', plotsCmd pre types request o w = (.ok (), w') ∧ w'.log = (types.map Event.plot).reverse ++ w.log := by
  obtain ⟨c, h0, hc, hk, hs, hf⟩ := full_of_completed hp hw
  obtain ⟨src, d, h1, h2, h3, h4⟩ := post_full hs hf h
  obtain ⟨w', hw', hl⟩ := plotLoop_full hp hk hs ho ht ⟨hf, c, h0, hc⟩
  refine ⟨w', ?_, hl⟩
  unfold plotsCmd
  rw [bind_of_ok (show loadR w = (.ok c, w) by unfold loadR; rw [h0]), bind_of_ok (work_none ho _ _), bind_of_ok (lift_run h1 w), bind_of_ok (show assertR true w = (.ok (), w) by rfl), bind_of_ok (lift_run h2 w), bind_of_ok h3, hw']

/-- C105: after sampling, each table finds what it needs, unless parameters are to be shown after a fit that came later than the MCMC run. -/
theorem C105_tables_partial {pre : Text} (hp : PlainPrefix pre) {w : World} (hw : Completed pre w) {request s : Text} (h : Chosen w.log request s) {types : List TableType} (ht : ∀ t ∈ types, TableOk w.log s t) {o : Oracle}
    (ho : ∀ k, o k = none) : ∃ u w', tablesCmd pre types request o w = (.ok u, w') ∧ u.sampler = s ∧ w'.log = (types.map Event.table).reverse ++ w.log := by
  obtain ⟨c, h0, hc, hk, hs, hf⟩ := full_of_completed hp hw
  obtain ⟨u, h1, rfl, h3⟩ := results_full hk hs hf h.1
  obtain ⟨w', hw', hl⟩ := tableLoop_full hp hs ho h3 h.1 ht u.derived.isSome ⟨hf, c, h0, hc⟩
  refine ⟨u, w', ?_, rfl, hl⟩
  unfold tablesCmd
  rw [bind_of_ok (show loadR w = (.ok c, w) by unfold loadR; rw [h0]), bind_of_ok (work_none ho _ _), bind_of_ok (lift_run (pick_chosen hk hs h) w), bind_of_ok (criteria_full hs h.1), bind_of_ok h1, bind_of_ok hw']
  rfl

/-- C105 is false after fitting again: the table of parameters cannot be made from the MCMC run, and a report neither. -/
theorem C105_refit_violated {pre : Text} (hp : PlainPrefix pre) {w w1 : World} (hw : Completed pre w) {o : Oracle} (hfit : fitCmd pre o w = (.ok (), w1)) {request : Text} (h : Chosen w1.log request "mcmc".toList)
    {o' : Oracle} (ho : ∀ k, o' k = none) : (∀ types, tablesCmd pre (.params :: types) request o' w1 = (.error .attributeError, w1)) ∧ ∀ u w', reportCmd request o' w1 ≠ (.ok u, w') := by
  have hw1 : Completed pre w1 := .step w w1 .fit o hw trivial trivial hfit
  have hne : lastFitOrMcmc w1.log ≠ lastMcmc w1.log := by
    rw [(fit_log hfit).1]
    intro he
    have : lastMcmc (.fit w.clock :: w.log) = some ⟨.fit, w.clock⟩ := he.symm
    have h2 := (lastMcmc_mem this).2
    cases h2
  refine ⟨?_, ?_⟩
  · intro types
    obtain ⟨c, h0, hc, hk, hs, hf⟩ := full_of_completed hp hw1
    obtain ⟨u, h1, h2, h3⟩ := results_full hk hs hf h.1
    unfold tablesCmd
    rw [bind_of_ok (show loadR w1 = (.ok c, w1) by unfold loadR; rw [h0]), bind_of_ok (work_none ho _ _), bind_of_ok (lift_run (pick_chosen hk hs h) w1), bind_of_ok (criteria_full hs h.1), bind_of_ok h1]
    refine bind_of_error (bind_of_error ?_)
    exact bind_of_error (maxparams_refit h3 h2 hne w1)
  · intro u w' hr
    obtain ⟨h1, h2, h3⟩ := report_origin hp hw1 hr
    have hsam : u.sampler = "mcmc".toList := by
      obtain ⟨c, h0, hc, hk, hs, hf⟩ := full_of_completed hp hw1
      have e1 := pick_chosen hk hs h
      have e2 := pick_chosen hk hs h1
      rw [e1] at e2
      exact (Except.ok.inj e2).symm
    obtain ⟨a, b⟩ := h2.1 hsam
    exact hne (b.trans (lastFitOrMcmc_mcmc b h3).symm)

/-- C105: after sampling, parameters can be derived. -/
theorem C105_derive {pre : Text} (hp : PlainPrefix pre) {w : World} (hw : Completed pre w) {request s : Text} (h : Chosen w.log request s) (stellar : Bool) {o : Oracle} (ho : ∀ k, o k = none) :
    ∃ u w', deriveCmd pre request stellar o w = (.ok u, w') ∧ (stellar = true → ∃ x, u = some x ∧ x.sampler = s ∧ w'.log = .derive x.chains :: w.log) := by
  obtain ⟨c, h0, hc, hk, hs, hf⟩ := full_of_completed hp hw
  obtain ⟨cpath, ch, h1, h2⟩ := chains_full hs hf h.1
  have hpost : ∃ ppath post, getOption c s "postfile".toList = .ok ppath ∧ readPost ppath w = (.ok post, w) := by
    rcases (full_sampler hs h.1).2 with ⟨rfl, _, e⟩ | ⟨rfl, _, e⟩
    · have hm : ∃ n, Event.mcmc n ∈ w.log := by
        rcases h.1 with ⟨_, h⟩ | ⟨h, _⟩
        · exact h
        · exact absurd h (by decide)
      obtain ⟨src, hl⟩ := lastFitOrMcmc_some (.inr hm)
      obtain ⟨d, hd⟩ := hf.post src hl
      exact ⟨_, (src, d), e, by unfold readPost; rw [hd]⟩
    · have hm : ∃ n, Event.ns n ∈ w.log := by
        rcases h.1 with ⟨h, _⟩ | ⟨_, h⟩
        · exact absurd h (by decide)
        · exact h
      obtain ⟨src, hl⟩ := lastNs_some hm
      obtain ⟨⟨d, hd⟩, _⟩ := hf.ns src hl
      exact ⟨_, (src, d), e, by unfold readPost; rw [hd]⟩
  obtain ⟨ppath, post, h3, h4⟩ := hpost
  have hload : loadR w = (.ok c, w) := by unfold loadR; rw [h0]
  cases stellar with
  | false =>
    refine ⟨none, w, ?_, fun h => by cases h⟩
    unfold deriveCmd
    rw [bind_of_ok hload, bind_of_ok (lift_run (pick_chosen hk hs h) w), bind_of_ok (work_none ho _ _), bind_of_ok (lift_run h3 w), bind_of_ok h4, bind_of_ok (lift_run h1 w), bind_of_ok h2]
    rfl
  | true =>
    obtain ⟨t, e1, _⟩ := save_plain h0 hc (plain_derive hp)
    refine ⟨some ⟨s, ch, post.1, some ch⟩, { w with stat := some t, log := .derive ch :: w.log, files := Dict.set (Dict.set (Dict.set w.files (pathOf pre "_derived_quantiles.csv") .other) ppath (.post post.1 (some ch))) (pathOf pre "_derived.csv.bz2") (.derivedChains ch) }, ?_, fun _ => ⟨_, rfl, rfl, rfl⟩⟩
    have hcomp : ∀ w1 : World, w1.stat = w.stat → complete "derive".toList [("run".toList, trueText), ("quantfile".toList, pathOf pre "_derived_quantiles.csv"), ("chainfile".toList, pathOf pre "_derived.csv.bz2")] (.derive ch) w1 =
        (.ok (), { w1 with stat := some t, log := .derive ch :: w1.log }) := by
      intro w1 hw1
      unfold complete
      rw [hw1, e1]
    unfold deriveCmd
    rw [bind_of_ok hload, bind_of_ok (lift_run (pick_chosen hk hs h) w), bind_of_ok (work_none ho _ _), bind_of_ok (lift_run h3 w), bind_of_ok h4, bind_of_ok (lift_run h1 w), bind_of_ok h2, if_neg (by decide),
      bind_of_ok (work_none ho _ _), bind_of_ok (show writeR _ _ _ = (.ok (), _) from rfl), bind_of_ok (show writeR _ _ _ = (.ok (), _) from rfl), bind_of_ok (work_none ho _ _),
      bind_of_ok (show writeR _ _ _ = (.ok (), _) from rfl)]
    exact bind_of_ok (hcomp { w with files := Dict.set (Dict.set (Dict.set w.files (pathOf pre "_derived_quantiles.csv") .other) ppath (.post post.1 (some ch))) (pathOf pre "_derived.csv.bz2") (.derivedChains ch) } rfl)

/-- C105: after sampling and plotting, a report can be made, unless something was fitted after the MCMC run. -/
theorem C105_report_partial {pre : Text} (hp : PlainPrefix pre) {w : World} (hw : Completed pre w) {request s : Text} (h : Chosen w.log request s) (hplot : ∃ t, Event.plot t ∈ w.log)
    (hfit : s = "mcmc".toList → lastFitOrMcmc w.log = lastMcmc w.log) {o : Oracle} (ho : ∀ k, o k = none) : ∃ u, reportCmd request o w = (.ok u, w) ∧ u.sampler = s := by
  obtain ⟨c, h0, hc, hk, hs, hf⟩ := full_of_completed hp hw
  obtain ⟨u, h1, rfl, h3⟩ := results_full hk hs hf h.1
  refine ⟨u, ?_, rfl⟩
  have hic : (!(c.has "ic_compare".toList) || hasOption c "ic_compare".toList "ic".toList) = true := by
    by_cases hh : c.has "ic_compare".toList = true
    · rw [hasOption_value (hs.ic (ic_of (hk _ ((Dict.has_iff _ _).1 hh)))) (by decide)]
      simp
    · simp only [Bool.not_eq_true] at hh
      rw [hh]
      rfl
  have hpl : c.has "plot".toList = true := by
    obtain ⟨t, ht⟩ := hplot
    exact (Dict.has_iff _ _).2 (hs.keys _ ht)
  unfold reportCmd
  rw [bind_of_ok (show loadR w = (.ok c, w) by unfold loadR; rw [h0]), hic, bind_of_ok (show checkThat true _ w = (.ok (), w) from rfl), bind_of_ok (lift_run (pick_chosen hk hs h) w), bind_of_ok (work_none ho _ _),
    bind_of_ok (criteria_full hs h.1), bind_of_ok h1, hpl, bind_of_ok (show checkThat true _ w = (.ok (), w) from rfl), bind_of_ok (maxparams_full h3 h.1 hfit w), bind_of_ok (work_none ho _ _)]
  rfl

example : ∃ w, Completed somePrefix w ∧ Fitted w.log ∧ Chosen w.log "auto".toList "mcmc".toList ∧ (∀ t ∈ [PlotType.rv, .auto, .corner, .trend, .derived], PlotOk w.log "auto".toList t) ∧
    (∀ t ∈ [TableType.params, .priors, .rv, .icCompare, .derived, .crit], TableOk w.log "mcmc".toList t) ∧ ∃ t, Event.plot t ∈ w.log := by
  refine ⟨_, wholePipeline_completed, ?_⟩
  have hlog : (runCommands [.fit, .mcmc someNumbers, .derive "auto".toList true, .ic "[]".toList, .plots [.rv, .trend, .derived] "auto".toList] emptyWorld).log =
      [.plot .derived, .plot .trend, .plot .rv, .ic, .derive ⟨.mcmc, 1⟩, .mcmc 1, .fit 0] := by decide +kernel
  rw [hlog]
  have hch : Chosen [.plot .derived, .plot .trend, .plot .rv, .ic, .derive ⟨.mcmc, 1⟩, .mcmc 1, .fit 0] "auto".toList "mcmc".toList := ⟨.inl ⟨rfl, 1, by simp⟩, .inr ⟨rfl, .inl rfl⟩⟩
  refine ⟨⟨0, by simp⟩, hch, ?_, ?_, .rv, by simp⟩
  · intro t _
    cases t
    · trivial
    · exact hch
    · exact ⟨_, hch⟩
    · exact hch
    · exact ⟨⟨.mcmc, 1⟩, by simp⟩
  · intro t _
    cases t
    · exact fun _ => rfl
    · trivial
    · trivial
    · show Event.ic ∈ _; simp
    · exact ⟨⟨⟨.mcmc, 1⟩, by simp⟩, fun _ => rfl⟩
    · trivial

end Radvel
