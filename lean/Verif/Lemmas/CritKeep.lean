import Verif.Lemmas.PipelineFull

/-! Commands other than `mcmc` leave the entries that `mcmc` has saved in the status file as they are (lemmas for C157). -/

namespace Radvel

/-- The status file can be read. -/
def Readable (w : World) (c : Config) : Prop := loadStatus w.stat = .ok c ∧ PlainConfig c

/-- A step that leaves the entries of the sampler as they are, whether it succeeds or not. -/
def KeepsMcmc {α : Type} (m : Run α) : Prop := ∀ w c, Readable w c → ∃ c', Readable (m w).2 c' ∧ ∀ k, Config.value c' "mcmc".toList k = Config.value c "mcmc".toList k

theorem keepsMcmc_bind {α β : Type} {m : Run α} {f : α → Run β} (hm : KeepsMcmc m) (hf : ∀ a, KeepsMcmc (f a)) : KeepsMcmc (m >>= f) := by
  intro w c hw
  rw [run_bind]
  obtain ⟨c1, h1, h2⟩ := hm w c hw
  rcases h : m w with ⟨r, w1⟩
  rw [h] at h1
  rcases r with e | a
  · exact ⟨c1, h1, h2⟩
  · obtain ⟨c2, h3, h4⟩ := hf a w1 c1 h1
    exact ⟨c2, h3, fun k => (h4 k).trans (h2 k)⟩

theorem keepsMcmc_same {α : Type} {m : Run α} (h : ∀ w, (m w).2.stat = w.stat) : KeepsMcmc m := by
  intro w c hw
  exact ⟨c, ⟨by rw [h]; exact hw.1, hw.2⟩, fun _ => rfl⟩

theorem keepsMcmc_pure {α : Type} (a : α) : KeepsMcmc (pure a : Run α) := keepsMcmc_same fun _ => rfl
theorem keepsMcmc_lift {α : Type} (x : Except PyErr α) : KeepsMcmc (lift x) := keepsMcmc_same fun _ => rfl
theorem keepsMcmc_work (o : Oracle) (k : Work) : KeepsMcmc (work o k) := keepsMcmc_same fun w => by unfold work; rcases o k with _ | e <;> rfl
theorem keepsMcmc_newRun : KeepsMcmc newRun := keepsMcmc_same fun _ => rfl
theorem keepsMcmc_load : KeepsMcmc loadR := keepsMcmc_same fun _ => rfl
theorem keepsMcmc_write (p : Text) (c : Content) : KeepsMcmc (writeR p c) := keepsMcmc_same fun _ => rfl
theorem keepsMcmc_readPost (p : Text) : KeepsMcmc (readPost p) := keepsMcmc_same fun w => by unfold readPost; split <;> rfl
theorem keepsMcmc_readChains (p : Text) : KeepsMcmc (readChains p) := keepsMcmc_same fun w => by unfold readChains; split <;> rfl
theorem keepsMcmc_readAutocorr (p : Text) : KeepsMcmc (readAutocorr p) := keepsMcmc_same fun w => by unfold readAutocorr; split <;> rfl
theorem keepsMcmc_readDerived (p : Text) : KeepsMcmc (readDerived p) := keepsMcmc_same fun w => by unfold readDerived; split <;> rfl
theorem keepsMcmc_assert (b : Bool) : KeepsMcmc (assertR b) := by cases b <;> exact keepsMcmc_lift _

theorem keepsMcmc_ite {α : Type} (p : Prop) [Decidable p] {m n : Run α} (hm : KeepsMcmc m) (hn : KeepsMcmc n) : KeepsMcmc (if p then m else n) := by
  split_ifs
  · exact hm
  · exact hn

theorem keepsMcmc_complete {sec : Text} {vars : List (Text × Text)} {ev : Event} (hx : Save.Plain ⟨sec, vars⟩) (hs : sec ≠ "mcmc".toList) : KeepsMcmc (complete sec vars ev) := by
  rintro w c ⟨h0, hc⟩
  obtain ⟨t, h1, h2, h3⟩ := save_plain h0 hc hx
  unfold complete
  rw [h1]
  exact ⟨_, ⟨h2, h3⟩, fun k => by rw [value_step hc hx, if_neg hs]⟩

theorem keepsMcmc_fit {pre : Text} (hp : PlainPrefix pre) (o : Oracle) : KeepsMcmc (fitCmd pre o) :=
  keepsMcmc_bind (keepsMcmc_work _ _) fun _ => keepsMcmc_bind (keepsMcmc_work _ _) fun _ => keepsMcmc_bind keepsMcmc_newRun fun _ => keepsMcmc_bind (keepsMcmc_work _ _) fun _ => keepsMcmc_bind (keepsMcmc_write _ _) fun _ =>
    keepsMcmc_complete (plain_fit hp) (by decide)

theorem keepsMcmc_ns {pre : Text} (hp : PlainPrefix pre) {kwargs : List (Text × Text)} (hk : ∀ o ∈ kwargs, PlainOption (lower o.1) ∧ PlainValue o.2) (o : Oracle) : KeepsMcmc (nsCmd pre kwargs o) :=
  keepsMcmc_bind keepsMcmc_load fun _ => keepsMcmc_bind (keepsMcmc_work _ _) fun _ => keepsMcmc_bind (keepsMcmc_work _ _) fun _ => keepsMcmc_bind keepsMcmc_newRun fun _ => keepsMcmc_bind (keepsMcmc_write _ _) fun _ =>
    keepsMcmc_bind (keepsMcmc_write _ _) fun _ => keepsMcmc_bind (keepsMcmc_work _ _) fun _ => keepsMcmc_bind (keepsMcmc_write _ _) fun _ => keepsMcmc_complete (plain_ns hp hk) (by decide)

theorem keepsMcmc_ic {text : Text} (h : PlainValue text) (o : Oracle) : KeepsMcmc (icCmd text o) :=
  keepsMcmc_bind keepsMcmc_load fun _ => keepsMcmc_bind (keepsMcmc_work _ _) fun _ => keepsMcmc_bind (keepsMcmc_lift _) fun _ => keepsMcmc_bind (keepsMcmc_assert _) fun _ => keepsMcmc_bind (keepsMcmc_lift _) fun _ =>
    keepsMcmc_bind (keepsMcmc_readPost _) fun _ => keepsMcmc_bind (keepsMcmc_work _ _) fun _ => keepsMcmc_bind (keepsMcmc_complete (plain_ic h) (by decide)) fun _ => keepsMcmc_pure _

theorem keepsMcmc_void {α : Type} {m : Run α} (h : KeepsMcmc m) : KeepsMcmc (void m) := keepsMcmc_bind h fun _ => keepsMcmc_pure _

theorem keepsMcmc_plotChains (status : Config) (request : Text) (t : PlotType) : KeepsMcmc (plotChains status request t) := by
  refine keepsMcmc_bind (keepsMcmc_lift _) fun sampler => keepsMcmc_bind ?_ fun _ => keepsMcmc_bind (keepsMcmc_lift _) fun _ => keepsMcmc_readChains _
  unfold checkSampler
  exact keepsMcmc_ite _ (keepsMcmc_bind (keepsMcmc_lift _) fun _ => keepsMcmc_assert _) (keepsMcmc_bind (keepsMcmc_assert _) fun _ => keepsMcmc_bind (keepsMcmc_lift _) fun _ => keepsMcmc_void (keepsMcmc_readAutocorr _))

theorem keepsMcmc_plotOne {pre : Text} (hp : PlainPrefix pre) (status : Config) (request : Text) (post : Source × Option Source) (o : Oracle) (t : PlotType) : KeepsMcmc (plotOne pre status request post o t) := by
  refine keepsMcmc_bind ?_ fun _ => keepsMcmc_bind (keepsMcmc_work _ _) fun _ => keepsMcmc_bind (keepsMcmc_write _ _) fun _ => keepsMcmc_complete (plain_plot hp t) (by decide)
  cases t
  · exact keepsMcmc_ite _ (keepsMcmc_bind (keepsMcmc_lift _) fun _ => keepsMcmc_void (keepsMcmc_readDerived _)) (keepsMcmc_pure _)
  · exact keepsMcmc_void (keepsMcmc_plotChains _ _ _)
  · exact keepsMcmc_void (keepsMcmc_plotChains _ _ _)
  · exact keepsMcmc_bind (keepsMcmc_plotChains _ _ _) fun _ => keepsMcmc_bind (keepsMcmc_lift _) fun _ => keepsMcmc_void (keepsMcmc_lift _)
  · exact keepsMcmc_bind (keepsMcmc_assert _) fun _ => keepsMcmc_bind (keepsMcmc_lift _) fun _ => keepsMcmc_void (keepsMcmc_readDerived _)

theorem keepsMcmc_plotLoop {pre : Text} (hp : PlainPrefix pre) (status : Config) (request : Text) (post : Source × Option Source) (o : Oracle) (ts : List PlotType) : KeepsMcmc (plotLoop pre status request post o ts) := by
  induction ts with
  | nil => exact keepsMcmc_pure _
  | cons t ts ih => exact keepsMcmc_bind (keepsMcmc_plotOne hp _ _ _ _ _) fun _ => ih

theorem keepsMcmc_plots {pre : Text} (hp : PlainPrefix pre) (types : List PlotType) (request : Text) (o : Oracle) : KeepsMcmc (plotsCmd pre types request o) :=
  keepsMcmc_bind keepsMcmc_load fun _ => keepsMcmc_bind (keepsMcmc_work _ _) fun _ => keepsMcmc_bind (keepsMcmc_lift _) fun _ => keepsMcmc_bind (keepsMcmc_assert _) fun _ => keepsMcmc_bind (keepsMcmc_lift _) fun _ =>
    keepsMcmc_bind (keepsMcmc_readPost _) fun _ => keepsMcmc_plotLoop hp _ _ _ _ _

theorem keepsMcmc_criteria (status : Config) (sampler : Text) : KeepsMcmc (readCriteria status sampler) :=
  keepsMcmc_ite _ (keepsMcmc_bind (keepsMcmc_lift _) fun _ => keepsMcmc_bind (keepsMcmc_lift _) fun _ => keepsMcmc_bind (keepsMcmc_lift _) fun _ => keepsMcmc_void (keepsMcmc_lift _)) (keepsMcmc_pure _)

theorem keepsMcmc_join (status : Config) : KeepsMcmc (joinDerived status) := by
  refine keepsMcmc_ite _ (keepsMcmc_bind (keepsMcmc_lift _) fun _ => ?_) (keepsMcmc_pure _)
  exact keepsMcmc_ite _ (keepsMcmc_bind (keepsMcmc_lift _) fun _ => keepsMcmc_bind (keepsMcmc_readDerived _) fun _ => keepsMcmc_pure _) (keepsMcmc_pure _)

theorem keepsMcmc_results (status : Config) (sampler : Text) : KeepsMcmc (readResults status sampler) :=
  keepsMcmc_bind (keepsMcmc_lift _) fun _ => keepsMcmc_bind (keepsMcmc_readChains _) fun _ => keepsMcmc_bind (keepsMcmc_lift _) fun _ => keepsMcmc_bind (keepsMcmc_readPost _) fun _ => keepsMcmc_bind (keepsMcmc_join _) fun _ => keepsMcmc_pure _

theorem keepsMcmc_maxparams (u : Used) : KeepsMcmc (needMaxparams u) := keepsMcmc_ite _ (keepsMcmc_lift _) (keepsMcmc_pure _)

theorem keepsMcmc_tableText (status : Config) (o : Oracle) (u : Used) (flag : Bool) (t : TableType) : KeepsMcmc (tableText status o u flag t) := by
  cases t
  · exact keepsMcmc_bind (keepsMcmc_maxparams _) fun _ => keepsMcmc_bind (keepsMcmc_work _ _) fun _ => keepsMcmc_pure _
  · exact keepsMcmc_bind (keepsMcmc_work _ _) fun _ => keepsMcmc_pure _
  · exact keepsMcmc_bind (keepsMcmc_work _ _) fun _ => keepsMcmc_pure _
  · exact keepsMcmc_bind (keepsMcmc_assert _) fun _ => keepsMcmc_bind (keepsMcmc_work _ _) fun _ => keepsMcmc_pure _
  · exact keepsMcmc_bind (keepsMcmc_assert _) fun _ => keepsMcmc_ite _ (keepsMcmc_bind (keepsMcmc_maxparams _) fun _ => keepsMcmc_bind (keepsMcmc_work _ _) fun _ => keepsMcmc_pure _) (keepsMcmc_pure _)
  · exact keepsMcmc_bind (keepsMcmc_work _ _) fun _ => keepsMcmc_pure _

theorem keepsMcmc_tableLoop {pre : Text} (hp : PlainPrefix pre) (status : Config) (o : Oracle) (u : Used) (flag : Bool) (ts : List TableType) : KeepsMcmc (tableLoop_ pre status o u flag ts) := by
  induction ts generalizing flag with
  | nil => exact keepsMcmc_pure _
  | cons t ts ih => exact keepsMcmc_bind (keepsMcmc_tableText _ _ _ _ _) fun x => keepsMcmc_bind (keepsMcmc_write _ _) fun _ => keepsMcmc_bind (keepsMcmc_complete (plain_table hp t) (by decide)) fun _ => ih _

theorem keepsMcmc_tables {pre : Text} (hp : PlainPrefix pre) (types : List TableType) (request : Text) (o : Oracle) : KeepsMcmc (tablesCmd pre types request o) :=
  keepsMcmc_bind keepsMcmc_load fun _ => keepsMcmc_bind (keepsMcmc_work _ _) fun _ => keepsMcmc_bind (keepsMcmc_lift _) fun _ => keepsMcmc_bind (keepsMcmc_criteria _ _) fun _ => keepsMcmc_bind (keepsMcmc_results _ _) fun _ =>
    keepsMcmc_bind (keepsMcmc_tableLoop hp _ _ _ _ _) fun _ => keepsMcmc_pure _

theorem keepsMcmc_derive {pre : Text} (hp : PlainPrefix pre) (request : Text) (stellar : Bool) (o : Oracle) : KeepsMcmc (deriveCmd pre request stellar o) := by
  refine keepsMcmc_bind keepsMcmc_load fun _ => keepsMcmc_bind (keepsMcmc_lift _) fun _ => keepsMcmc_bind (keepsMcmc_work _ _) fun _ => keepsMcmc_bind (keepsMcmc_lift _) fun _ => keepsMcmc_bind (keepsMcmc_readPost _) fun _ =>
    keepsMcmc_bind (keepsMcmc_lift _) fun _ => keepsMcmc_bind (keepsMcmc_readChains _) fun _ => ?_
  refine keepsMcmc_ite _ (keepsMcmc_pure _) ?_
  exact keepsMcmc_bind (keepsMcmc_work _ _) fun _ => keepsMcmc_bind (keepsMcmc_write _ _) fun _ => keepsMcmc_bind (keepsMcmc_write _ _) fun _ => keepsMcmc_bind (keepsMcmc_work _ _) fun _ => keepsMcmc_bind (keepsMcmc_write _ _) fun _ =>
    keepsMcmc_bind (keepsMcmc_complete (plain_derive hp) (by decide)) fun _ => keepsMcmc_pure _

theorem keepsMcmc_checkThat (b : Bool) (e : PyErr) : KeepsMcmc (checkThat b e) := keepsMcmc_ite _ (keepsMcmc_pure _) (keepsMcmc_lift _)

theorem keepsMcmc_report (request : Text) (o : Oracle) : KeepsMcmc (reportCmd request o) :=
  keepsMcmc_bind keepsMcmc_load fun _ => keepsMcmc_bind (keepsMcmc_checkThat _ _) fun _ => keepsMcmc_bind (keepsMcmc_lift _) fun _ => keepsMcmc_bind (keepsMcmc_work _ _) fun _ =>
    keepsMcmc_bind (keepsMcmc_criteria _ _) fun _ => keepsMcmc_bind (keepsMcmc_results _ _) fun _ => keepsMcmc_bind (keepsMcmc_checkThat _ _) fun _ =>
      keepsMcmc_bind (keepsMcmc_maxparams _) fun _ => keepsMcmc_bind (keepsMcmc_work _ _) fun _ => keepsMcmc_pure _

theorem keepsMcmc_command {pre : Text} (hp : PlainPrefix pre) (o : Oracle) (c : Command) (hc : c.Plain) (hm : ∀ num, c ≠ .mcmc num) : KeepsMcmc (runCommand pre o c) := by
  cases c with
  | fit => exact keepsMcmc_fit hp o
  | mcmc num => exact absurd rfl (hm num)
  | ns kwargs => exact keepsMcmc_ns hp hc o
  | ic text => exact keepsMcmc_void (keepsMcmc_ic hc o)
  | plots types request => exact keepsMcmc_plots hp types request o
  | tables types request => exact keepsMcmc_void (keepsMcmc_tables hp types request o)
  | derive request stellar => exact keepsMcmc_void (keepsMcmc_derive hp request stellar o)
  | report request => exact keepsMcmc_void (keepsMcmc_report request o)

end Radvel
