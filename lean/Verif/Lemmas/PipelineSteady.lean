import Verif.Lemmas.Pipeline

/-! Every command keeps the invariant of the pipeline. -/

namespace Radvel

/-- Checks that a fixed option name is plain. -/
theorem plainOption_of {k : Text} (h : lower k ≠ [] ∧ ('\n' ∉ lower k ∧ '\r' ∉ lower k) ∧ strip (lower k) = lower k ∧ lower (lower k) = lower k ∧ ('=' ∉ lower k ∧ ':' ∉ lower k) ∧
    ((lower k).head? ≠ some '#' ∧ (lower k).head? ≠ some ';' ∧ (lower k).head? ≠ some '[')) : PlainOption (lower k) :=
  ⟨h.1, ⟨h.2.1, h.2.2.1⟩, h.2.2.2.1, h.2.2.2.2.1, h.2.2.2.2.2⟩

theorem plainSection_of {s : Text} (h : s ≠ [] ∧ ('\n' ∉ s ∧ '\r' ∉ s) ∧ ']' ∉ s ∧ s ≠ "DEFAULT".toList) : PlainSection s := ⟨h.1, h.2.1, h.2.2.1, h.2.2.2⟩

theorem plain_true : PlainValue trueText := ⟨by decide, by decide⟩

theorem plain_fit {pre : Text} (hp : PlainPrefix pre) : Save.Plain ⟨"fit".toList, [("run".toList, trueText), ("postfile".toList, pathOf pre "_post_obj.pkl")]⟩ := by
  refine ⟨plainSection_of (by dsimp only; decide), ?_⟩
  intro o ho
  simp only [List.mem_cons, List.not_mem_nil, or_false] at ho
  rcases ho with rfl | rfl
  · exact ⟨plainOption_of (by try dsimp only; decide), plain_true⟩
  · exact ⟨plainOption_of (by try dsimp only; decide), plain_path hp _ ⟨"_post_obj.pk".toList, 'l', by decide, by decide⟩ (by decide)⟩

theorem plain_mcmc {pre : Text} (hp : PlainPrefix pre) {num : McmcNumbers} (hn : num.Plain) : Save.Plain ⟨"mcmc".toList, mcmcVars pre num⟩ := by
  refine ⟨plainSection_of (by dsimp only; decide), ?_⟩
  intro o ho
  simp only [mcmcVars, List.mem_cons, List.not_mem_nil, or_false] at ho
  rcases ho with rfl | rfl | rfl | rfl | rfl | rfl | rfl | rfl | rfl | rfl | rfl | rfl | rfl | rfl
  · exact ⟨plainOption_of (by try dsimp only; decide), plain_true⟩
  · exact ⟨plainOption_of (by try dsimp only; decide), plain_path hp _ ⟨"_post_obj.pk".toList, 'l', by decide, by decide⟩ (by decide)⟩
  · exact ⟨plainOption_of (by try dsimp only; decide), plain_path hp _ ⟨"_chains.csv.bz".toList, '2', by decide, by decide⟩ (by decide)⟩
  · exact ⟨plainOption_of (by try dsimp only; decide), plain_path hp _ ⟨"_autocorr.cs".toList, 'v', by decide, by decide⟩ (by decide)⟩
  · exact ⟨plainOption_of (by try dsimp only; decide), plain_path hp _ ⟨"_post_summary.cs".toList, 'v', by decide, by decide⟩ (by decide)⟩
  · exact ⟨plainOption_of (by try dsimp only; decide), hn.nwalkers⟩
  · exact ⟨plainOption_of (by try dsimp only; decide), hn.nensembles⟩
  · exact ⟨plainOption_of (by try dsimp only; decide), hn.maxsteps⟩
  · exact ⟨plainOption_of (by try dsimp only; decide), hn.nsteps⟩
  · exact ⟨plainOption_of (by try dsimp only; decide), hn.nburn⟩
  · exact ⟨plainOption_of (by try dsimp only; decide), hn.minafactor⟩
  · exact ⟨plainOption_of (by try dsimp only; decide), hn.maxarchange⟩
  · exact ⟨plainOption_of (by try dsimp only; decide), hn.mintz⟩
  · exact ⟨plainOption_of (by try dsimp only; decide), hn.maxgr⟩

theorem plain_ns {pre : Text} (hp : PlainPrefix pre) {kwargs : List (Text × Text)} (hk : ∀ o ∈ kwargs, PlainOption (lower o.1) ∧ PlainValue o.2) : Save.Plain ⟨"ns".toList, nsVars pre kwargs⟩ := by
  refine ⟨plainSection_of (by dsimp only; decide), ?_⟩
  intro o ho
  rcases List.mem_append.1 ho with ho | ho
  · simp only [List.mem_cons, List.not_mem_nil, or_false] at ho
    rcases ho with rfl | rfl | rfl | rfl | rfl
    · exact ⟨plainOption_of (by try dsimp only; decide), plain_true⟩
    · exact ⟨plainOption_of (by try dsimp only; decide), plain_path hp _ ⟨"_post_obj_ns.pk".toList, 'l', by decide, by decide⟩ (by decide)⟩
    · exact ⟨plainOption_of (by try dsimp only; decide), plain_path hp _ ⟨"_chains_ns.csv.bz".toList, '2', by decide, by decide⟩ (by decide)⟩
    · exact ⟨plainOption_of (by try dsimp only; decide), plain_path hp _ ⟨"_n".toList, 's', by decide, by decide⟩ (by decide)⟩
    · exact ⟨plainOption_of (by try dsimp only; decide), plain_path hp _ ⟨"_post_summary_ns.cs".toList, 'v', by decide, by decide⟩ (by decide)⟩
  · exact hk o ho

theorem plain_ic {text : Text} (h : PlainValue text) : Save.Plain ⟨"ic_compare".toList, [("ic".toList, text)]⟩ := by
  refine ⟨plainSection_of (by dsimp only; decide), ?_⟩
  intro o ho
  simp only [List.mem_cons, List.not_mem_nil, or_false] at ho
  subst ho
  exact ⟨plainOption_of (by try dsimp only; decide), h⟩

theorem plain_plot {pre : Text} (hp : PlainPrefix pre) (t : PlotType) : Save.Plain ⟨"plot".toList, [(plotOption t, pathOf pre (plotSuffix t))]⟩ := by
  refine ⟨plainSection_of (by dsimp only; decide), ?_⟩
  intro o ho
  simp only [List.mem_cons, List.not_mem_nil, or_false] at ho
  subst ho
  cases t
  · exact ⟨plainOption_of (by try dsimp only; decide), plain_path hp _ ⟨"_rv_multipanel.pd".toList, 'f', by decide, by decide⟩ (by decide)⟩
  · exact ⟨plainOption_of (by try dsimp only; decide), plain_path hp _ ⟨"_auto.pd".toList, 'f', by decide, by decide⟩ (by decide)⟩
  · exact ⟨plainOption_of (by try dsimp only; decide), plain_path hp _ ⟨"_corner.pd".toList, 'f', by decide, by decide⟩ (by decide)⟩
  · exact ⟨plainOption_of (by try dsimp only; decide), plain_path hp _ ⟨"_trends.pd".toList, 'f', by decide, by decide⟩ (by decide)⟩
  · exact ⟨plainOption_of (by try dsimp only; decide), plain_path hp _ ⟨"_corner_derived_pars.pd".toList, 'f', by decide, by decide⟩ (by decide)⟩

theorem plain_table {pre : Text} (hp : PlainPrefix pre) (t : TableType) : Save.Plain ⟨"table".toList, [(tableOption t, pathOf pre (tableSuffix t))]⟩ := by
  refine ⟨plainSection_of (by dsimp only; decide), ?_⟩
  intro o ho
  simp only [List.mem_cons, List.not_mem_nil, or_false] at ho
  subst ho
  cases t
  · exact ⟨plainOption_of (by try dsimp only; decide), plain_path hp _ ⟨"_params.te".toList, 'x', by decide, by decide⟩ (by decide)⟩
  · exact ⟨plainOption_of (by try dsimp only; decide), plain_path hp _ ⟨"_priors.te".toList, 'x', by decide, by decide⟩ (by decide)⟩
  · exact ⟨plainOption_of (by try dsimp only; decide), plain_path hp _ ⟨"_rv.te".toList, 'x', by decide, by decide⟩ (by decide)⟩
  · exact ⟨plainOption_of (by try dsimp only; decide), plain_path hp _ ⟨"_ic_compare.te".toList, 'x', by decide, by decide⟩ (by decide)⟩
  · exact ⟨plainOption_of (by try dsimp only; decide), plain_path hp _ ⟨"_derived.te".toList, 'x', by decide, by decide⟩ (by decide)⟩
  · exact ⟨plainOption_of (by try dsimp only; decide), plain_path hp _ ⟨"_crit.te".toList, 'x', by decide, by decide⟩ (by decide)⟩

theorem plain_derive {pre : Text} (hp : PlainPrefix pre) :
    Save.Plain ⟨"derive".toList, [("run".toList, trueText), ("quantfile".toList, pathOf pre "_derived_quantiles.csv"), ("chainfile".toList, pathOf pre "_derived.csv.bz2")]⟩ := by
  refine ⟨plainSection_of (by dsimp only; decide), ?_⟩
  intro o ho
  simp only [List.mem_cons, List.not_mem_nil, or_false] at ho
  rcases ho with rfl | rfl | rfl
  · exact ⟨plainOption_of (by try dsimp only; decide), plain_true⟩
  · exact ⟨plainOption_of (by try dsimp only; decide), plain_path hp _ ⟨"_derived_quantiles.cs".toList, 'v', by decide, by decide⟩ (by decide)⟩
  · exact ⟨plainOption_of (by try dsimp only; decide), plain_path hp _ ⟨"_derived.csv.bz".toList, '2', by decide, by decide⟩ (by decide)⟩

theorem steady_fit {pre : Text} (hp : PlainPrefix pre) (o : Oracle) : Steady (fitCmd pre o) :=
  steady_bind (steady_work _ _) fun _ => steady_bind (steady_work _ _) fun _ => steady_bind steady_newRun fun _ => steady_bind (steady_work _ _) fun _ => steady_bind (steady_write _ _) fun _ =>
    steady_complete (plain_fit hp) rfl

theorem steady_mcmc {pre : Text} (hp : PlainPrefix pre) {num : McmcNumbers} (hn : num.Plain) (o : Oracle) : Steady (mcmcCmd pre num o) := by
  refine steady_bind steady_load fun _ => steady_bind (steady_work _ _) fun _ => steady_bind (steady_lift _) fun b => ?_
  refine steady_bind ?_ fun _ => ?_
  · unfold startFrom
    exact steady_ite _ (steady_bind (steady_lift _) fun _ => steady_bind (steady_readPost _) fun _ => steady_pure _) (steady_pure _)
  · exact steady_bind (steady_work _ _) fun _ => steady_bind steady_newRun fun _ => steady_bind (steady_write _ _) fun _ => steady_bind (steady_write _ _) fun _ => steady_bind (steady_work _ _) fun _ =>
      steady_bind (steady_write _ _) fun _ => steady_bind (steady_write _ _) fun _ => steady_bind (steady_complete (plain_mcmc hp hn) rfl) fun _ => steady_pure _

theorem steady_ns {pre : Text} (hp : PlainPrefix pre) {kwargs : List (Text × Text)} (hk : ∀ o ∈ kwargs, PlainOption (lower o.1) ∧ PlainValue o.2) (o : Oracle) : Steady (nsCmd pre kwargs o) :=
  steady_bind steady_load fun _ => steady_bind (steady_work _ _) fun _ => steady_bind (steady_work _ _) fun _ => steady_bind steady_newRun fun _ => steady_bind (steady_write _ _) fun _ =>
    steady_bind (steady_write _ _) fun _ => steady_bind (steady_work _ _) fun _ => steady_bind (steady_write _ _) fun _ => steady_complete (plain_ns hp hk) rfl

theorem steady_ic {text : Text} (h : PlainValue text) (o : Oracle) : Steady (icCmd text o) :=
  steady_bind steady_load fun _ => steady_bind (steady_work _ _) fun _ => steady_bind (steady_lift _) fun _ => steady_bind (steady_assert _) fun _ => steady_bind (steady_lift _) fun _ =>
    steady_bind (steady_readPost _) fun _ => steady_bind (steady_work _ _) fun _ => steady_bind (steady_complete (plain_ic h) rfl) fun _ => steady_pure _

theorem steady_void {α : Type} {m : Run α} (h : Steady m) : Steady (void m) := steady_bind h fun _ => steady_pure _

theorem steady_plotChains (status : Config) (request : Text) (t : PlotType) : Steady (plotChains status request t) := by
  refine steady_bind (steady_lift _) fun sampler => steady_bind ?_ fun _ => steady_bind (steady_lift _) fun _ => steady_readChains _
  unfold checkSampler
  exact steady_ite _ (steady_bind (steady_lift _) fun _ => steady_assert _) (steady_bind (steady_assert _) fun _ => steady_bind (steady_lift _) fun _ => steady_void (steady_readAutocorr _))

theorem steady_plotOne {pre : Text} (hp : PlainPrefix pre) (status : Config) (request : Text) (post : Source × Option Source) (o : Oracle) (t : PlotType) : Steady (plotOne pre status request post o t) := by
  refine steady_bind ?_ fun _ => steady_bind (steady_work _ _) fun _ => steady_bind (steady_write _ _) fun _ => steady_complete (plain_plot hp t) rfl
  cases t
  · exact steady_ite _ (steady_bind (steady_lift _) fun _ => steady_void (steady_readDerived _)) (steady_pure _)
  · exact steady_void (steady_plotChains _ _ _)
  · exact steady_void (steady_plotChains _ _ _)
  · exact steady_bind (steady_plotChains _ _ _) fun _ => steady_bind (steady_lift _) fun _ => steady_void (steady_lift _)
  · exact steady_bind (steady_assert _) fun _ => steady_bind (steady_lift _) fun _ => steady_void (steady_readDerived _)

theorem steady_plotLoop {pre : Text} (hp : PlainPrefix pre) (status : Config) (request : Text) (post : Source × Option Source) (o : Oracle) (ts : List PlotType) : Steady (plotLoop pre status request post o ts) := by
  induction ts with
  | nil => exact steady_pure _
  | cons t ts ih => exact steady_bind (steady_plotOne hp _ _ _ _ _) fun _ => ih

theorem steady_plots {pre : Text} (hp : PlainPrefix pre) (types : List PlotType) (request : Text) (o : Oracle) : Steady (plotsCmd pre types request o) :=
  steady_bind steady_load fun _ => steady_bind (steady_work _ _) fun _ => steady_bind (steady_lift _) fun _ => steady_bind (steady_assert _) fun _ => steady_bind (steady_lift _) fun _ =>
    steady_bind (steady_readPost _) fun _ => steady_plotLoop hp _ _ _ _ _

theorem steady_criteria (status : Config) (sampler : Text) : Steady (readCriteria status sampler) :=
  steady_ite _ (steady_bind (steady_lift _) fun _ => steady_bind (steady_lift _) fun _ => steady_bind (steady_lift _) fun _ => steady_void (steady_lift _)) (steady_pure _)

theorem steady_join (status : Config) : Steady (joinDerived status) := by
  refine steady_ite _ (steady_bind (steady_lift _) fun _ => ?_) (steady_pure _)
  exact steady_ite _ (steady_bind (steady_lift _) fun _ => steady_bind (steady_readDerived _) fun _ => steady_pure _) (steady_pure _)

theorem steady_results (status : Config) (sampler : Text) : Steady (readResults status sampler) :=
  steady_bind (steady_lift _) fun _ => steady_bind (steady_readChains _) fun _ => steady_bind (steady_lift _) fun _ => steady_bind (steady_readPost _) fun _ => steady_bind (steady_join _) fun _ => steady_pure _

theorem steady_maxparams (u : Used) : Steady (needMaxparams u) := steady_ite _ (steady_lift _) (steady_pure _)

theorem steady_tableText (status : Config) (o : Oracle) (u : Used) (flag : Bool) (t : TableType) : Steady (tableText status o u flag t) := by
  cases t
  · exact steady_bind (steady_maxparams _) fun _ => steady_bind (steady_work _ _) fun _ => steady_pure _
  · exact steady_bind (steady_work _ _) fun _ => steady_pure _
  · exact steady_bind (steady_work _ _) fun _ => steady_pure _
  · exact steady_bind (steady_assert _) fun _ => steady_bind (steady_work _ _) fun _ => steady_pure _
  · exact steady_bind (steady_assert _) fun _ => steady_ite _ (steady_bind (steady_maxparams _) fun _ => steady_bind (steady_work _ _) fun _ => steady_pure _) (steady_pure _)
  · exact steady_bind (steady_work _ _) fun _ => steady_pure _

theorem steady_tableLoop {pre : Text} (hp : PlainPrefix pre) (status : Config) (o : Oracle) (u : Used) (flag : Bool) (ts : List TableType) : Steady (tableLoop_ pre status o u flag ts) := by
  induction ts generalizing flag with
  | nil => exact steady_pure _
  | cons t ts ih => exact steady_bind (steady_tableText _ _ _ _ _) fun x => steady_bind (steady_write _ _) fun _ => steady_bind (steady_complete (plain_table hp t) rfl) fun _ => ih _

theorem steady_tables {pre : Text} (hp : PlainPrefix pre) (types : List TableType) (request : Text) (o : Oracle) : Steady (tablesCmd pre types request o) :=
  steady_bind steady_load fun _ => steady_bind (steady_work _ _) fun _ => steady_bind (steady_lift _) fun _ => steady_bind (steady_criteria _ _) fun _ => steady_bind (steady_results _ _) fun _ =>
    steady_bind (steady_tableLoop hp _ _ _ _ _) fun _ => steady_pure _

theorem steady_derive {pre : Text} (hp : PlainPrefix pre) (request : Text) (stellar : Bool) (o : Oracle) : Steady (deriveCmd pre request stellar o) := by
  refine steady_bind steady_load fun _ => steady_bind (steady_lift _) fun _ => steady_bind (steady_work _ _) fun _ => steady_bind (steady_lift _) fun _ => steady_bind (steady_readPost _) fun _ =>
    steady_bind (steady_lift _) fun _ => steady_bind (steady_readChains _) fun _ => ?_
  refine steady_ite _ (steady_pure _) ?_
  exact steady_bind (steady_work _ _) fun _ => steady_bind (steady_write _ _) fun _ => steady_bind (steady_write _ _) fun _ => steady_bind (steady_work _ _) fun _ => steady_bind (steady_write _ _) fun _ =>
    steady_bind (steady_complete (plain_derive hp) rfl) fun _ => steady_pure _

theorem steady_checkThat (b : Bool) (e : PyErr) : Steady (checkThat b e) := steady_ite _ (steady_pure _) (steady_lift _)

theorem steady_report (request : Text) (o : Oracle) : Steady (reportCmd request o) :=
  steady_bind steady_load fun _ => steady_bind (steady_checkThat _ _) fun _ => steady_bind (steady_lift _) fun _ => steady_bind (steady_work _ _) fun _ =>
    steady_bind (steady_criteria _ _) fun _ => steady_bind (steady_results _ _) fun _ => steady_bind (steady_checkThat _ _) fun _ =>
      steady_bind (steady_maxparams _) fun _ => steady_bind (steady_work _ _) fun _ => steady_pure _

theorem steady_command {pre : Text} (hp : PlainPrefix pre) (o : Oracle) (c : Command) (hc : c.Plain) : Steady (runCommand pre o c) := by
  cases c with
  | fit => exact steady_fit hp o
  | mcmc num => exact steady_void (steady_mcmc hp hc o)
  | ns kwargs => exact steady_ns hp hc o
  | ic text => exact steady_void (steady_ic hc o)
  | plots types request => exact steady_plots hp types request o
  | tables types request => exact steady_void (steady_tables hp types request o)
  | derive request stellar => exact steady_void (steady_derive hp request stellar o)
  | report request => exact steady_void (steady_report request o)

theorem good_of_reachable {pre : Text} (hp : PlainPrefix pre) {edits : Prop} {w : World} (h : Reachable pre edits w) : Good w := by
  induction h with
  | start files clock => exact ⟨[], rfl, ⟨by simp [Dict.keys], by simp, by simp, by simp⟩, by simp [Dict.keys]⟩
  | step w c o _ hc ih => exact (steady_command hp o c hc w ih).1
  | edit w files _ _ ih => exact ih

end Radvel
