import Verif.Lemmas.Provenance

/-!
# C102-C105: what tables, reports and derived parameters are made from

All statements are about pipelines whose commands have succeeded so far (`Completed`).
-/

namespace Radvel

/-- Whether all commands of a sequence succeed. -/
def allSucceed : List Command → World → Bool
  | [], _ => true
  | c :: cs, w => succeeds (runCommand somePrefix noFailure c) w && allSucceed cs (runCommand somePrefix noFailure c w).2

theorem completed_runCommands (cs : List Command) {w : World} (hw : Completed somePrefix w) (h : ∀ c ∈ cs, c.Plain ∧ c.Clean) (hs : allSucceed cs w = true) : Completed somePrefix (runCommands cs w) := by
  induction cs generalizing w with
  | nil => exact hw
  | cons c cs ih =>
    simp only [allSucceed, Bool.and_eq_true] at hs
    obtain ⟨h1, h2⟩ := hs
    unfold succeeds at h1
    rcases hr : runCommand somePrefix noFailure c w with ⟨r, w1⟩
    rw [hr] at h1 h2
    rcases r with e | u
    · cases h1
    · have e : runCommands (c :: cs) w = runCommands cs w1 := by
        show runCommands cs (runCommand somePrefix noFailure c w).2 = _
        rw [hr]
      rw [e]
      exact ih (.step w w1 c noFailure hw (h c (by simp)).1 (h c (by simp)).2 hr) (fun c' hc' => h c' (by simp [hc'])) h2

/-- C102 for tables: with the nested sampler, samples and posterior are those of its last run. With MCMC, the samples are those of the last run; the posterior is from the same run exactly if nothing was fitted since. -/
theorem C102_tables_partial {pre : Text} (hp : PlainPrefix pre) {w : World} (hw : Completed pre w) {types : List TableType} {request : Text} {o : Oracle} {u : Used} {w' : World}
    (h : tablesCmd pre types request o w = (.ok u, w')) :
    (u.sampler = "ns".toList → lastNs w.log = some u.chains ∧ u.post = u.chains) ∧
      (u.sampler = "mcmc".toList → lastMcmc w.log = some u.chains ∧ (u.post = u.chains ↔ lastFitOrMcmc w.log = lastMcmc w.log)) := by
  obtain ⟨_, h1, h2, _⟩ := tables_origin hp hw h
  refine ⟨?_, ?_⟩
  · intro hs
    obtain ⟨a, b⟩ := h2 hs
    rw [a] at b
    exact ⟨a, (Option.some.inj b).symm⟩
  · intro hs
    obtain ⟨a, b⟩ := h1 hs
    refine ⟨a, ?_⟩
    rw [a, b]
    exact ⟨fun h => by rw [h], fun h => Option.some.inj h⟩

/-- C102 for reports: samples and posterior always come from the same run, the last one of the sampler. -/
theorem C102_report {pre : Text} (hp : PlainPrefix pre) {w : World} (hw : Completed pre w) {request : Text} {o : Oracle} {u : Used} {w' : World} (h : reportCmd request o w = (.ok u, w')) :
    u.post = u.chains ∧ (u.sampler = "ns".toList → lastNs w.log = some u.chains) ∧ (u.sampler = "mcmc".toList → lastMcmc w.log = some u.chains) := by
  obtain ⟨hch, ⟨h1, h2, _⟩, h3⟩ := report_origin hp hw h
  refine ⟨?_, fun hs => (h2 hs).1, fun hs => (h1 hs).1⟩
  rcases hch.1 with ⟨hs, _⟩ | ⟨hs, _⟩
  · obtain ⟨a, b⟩ := h1 hs
    have := lastFitOrMcmc_mcmc b h3
    rw [a] at this
    exact (Option.some.inj this).symm
  · obtain ⟨a, b⟩ := h2 hs
    rw [a] at b
    exact (Option.some.inj b).symm

/-- C102 for derived parameters. -/
theorem C102_derive_partial {pre : Text} (hp : PlainPrefix pre) {w : World} (hw : Completed pre w) {request : Text} {stellar : Bool} {o : Oracle} {u : Used} {w' : World}
    (h : deriveCmd pre request stellar o w = (.ok (some u), w')) :
    (u.sampler = "ns".toList → lastNs w.log = some u.chains ∧ u.post = u.chains) ∧
      (u.sampler = "mcmc".toList → lastMcmc w.log = some u.chains ∧ (u.post = u.chains ↔ lastFitOrMcmc w.log = lastMcmc w.log)) := by
  obtain ⟨_, _, _, _, h1, h2⟩ := derive_origin hp hw h
  refine ⟨?_, ?_⟩
  · intro hs
    obtain ⟨a, b⟩ := h2 hs
    rw [a] at b
    exact ⟨a, (Option.some.inj b).symm⟩
  · intro hs
    obtain ⟨a, b⟩ := h1 hs
    refine ⟨a, ?_⟩
    rw [a, b]
    exact ⟨fun h => by rw [h], fun h => Option.some.inj h⟩

/-- C102 is false after fitting again: tables and derived parameters then combine the samples of the MCMC run with the new fit. -/
theorem C102_refit_violated {pre : Text} (hp : PlainPrefix pre) {w w1 : World} (hw : Completed pre w) {o : Oracle} (hfit : fitCmd pre o w = (.ok (), w1)) :
    (∀ types request o u w', tablesCmd pre types request o w1 = (.ok u, w') → u.sampler = "mcmc".toList → u.post = ⟨.fit, w.clock⟩ ∧ u.post ≠ u.chains) ∧
      ∀ request stellar o u w', deriveCmd pre request stellar o w1 = (.ok (some u), w') → u.sampler = "mcmc".toList → u.post = ⟨.fit, w.clock⟩ ∧ u.post ≠ u.chains := by
  have hw1 : Completed pre w1 := .step w w1 .fit o hw trivial trivial hfit
  have hlast : lastFitOrMcmc w1.log = some ⟨.fit, w.clock⟩ := by rw [(fit_log hfit).1]; rfl
  have fin : ∀ u : Used, lastMcmc w1.log = some u.chains ∧ lastFitOrMcmc w1.log = some u.post → u.post = ⟨.fit, w.clock⟩ ∧ u.post ≠ u.chains := by
    rintro u ⟨a, b⟩
    rw [hlast] at b
    have hb := (Option.some.inj b).symm
    refine ⟨hb, fun he => ?_⟩
    have := (lastMcmc_mem a).2
    rw [← he, hb] at this
    cases this
  refine ⟨?_, ?_⟩
  · intro types request o' u w' h hs
    exact fin u ((tables_origin hp hw1 h).2.1 hs)
  · intro request stellar o' u w' h hs
    exact fin u ((derive_origin hp hw1 h).2.2.2.2.1 hs)

/-- A pipeline in which these steps succeed: fit, MCMC, fit again. -/
theorem refit_completed : Completed somePrefix (runCommands [.fit, .mcmc someNumbers, .fit] emptyWorld) := by
  refine completed_runCommands _ (.start [] 0) ?_ (by decide +kernel)
  intro c hc
  simp only [List.mem_cons, List.not_mem_nil, or_false] at hc
  rcases hc with rfl | rfl | rfl
  · exact ⟨trivial, trivial⟩
  · exact ⟨someNumbers_plain, ⟨50, (pyInt_iff _ _).1 (by decide +kernel)⟩, ⟨8, (pyInt_iff _ _).1 (by decide +kernel)⟩⟩
  · exact ⟨trivial, trivial⟩

example : succeeds (tablesCmd somePrefix [.rv] "auto".toList noFailure) (runCommands [.fit, .mcmc someNumbers, .fit] emptyWorld) = true ∧
    succeeds (deriveCmd somePrefix "auto".toList true noFailure) (runCommands [.fit, .mcmc someNumbers, .fit] emptyWorld) = true := by decide +kernel

/-- C103: the derived parameters shown are those of the last derivation, and belong to the samples shown exactly if that derivation used these samples. -/
theorem C103_partial {pre : Text} (hp : PlainPrefix pre) {w : World} (hw : Completed pre w) {u : Used} {w' : World}
    (h : (∃ types request o, tablesCmd pre types request o w = (.ok u, w')) ∨ ∃ request o, reportCmd request o w = (.ok u, w')) :
    u.derived = lastDerive w.log ∧ (u.sampler = "ns".toList → (u.derived = some u.chains ↔ lastDerive w.log = lastNs w.log)) ∧
      (u.sampler = "mcmc".toList → (u.derived = some u.chains ↔ lastDerive w.log = lastMcmc w.log)) := by
  have ho : Origin w.log u := by
    rcases h with ⟨types, request, o, h⟩ | ⟨request, o, h⟩
    · exact (tables_origin hp hw h).2
    · exact (report_origin hp hw h).2.1
  obtain ⟨h1, h2, h3⟩ := ho
  refine ⟨h3, ?_, ?_⟩
  · intro hs
    rw [(h2 hs).1, h3]
  · intro hs
    rw [(h1 hs).1, h3]

/-- C103 holds right after deriving, for the sampler that was used. -/
theorem C103_derived_partial {pre : Text} (hp : PlainPrefix pre) {w w1 : World} (hw : Completed pre w) {request : Text} {stellar : Bool} {o : Oracle} {d : Used} (hd : deriveCmd pre request stellar o w = (.ok (some d), w1))
    {u : Used} {w' : World} (h : (∃ types request o, tablesCmd pre types request o w1 = (.ok u, w')) ∨ ∃ request o, reportCmd request o w1 = (.ok u, w')) (hs : u.sampler = d.sampler) : u.derived = some u.chains := by
  have hw1 : Completed pre w1 := .step w w1 (.derive request stellar) o hw trivial trivial (by
    show void _ w = _
    unfold void
    rw [bind_of_ok hd]
    rfl)
  have ho : Origin w1.log u := by
    rcases h with ⟨types, request, o, h⟩ | ⟨request, o, h⟩
    · exact (tables_origin hp hw1 h).2
    · exact (report_origin hp hw1 h).2.1
  obtain ⟨hch, _, hl, _, g1, g2⟩ := derive_origin hp hw hd
  obtain ⟨h1, h2, h3⟩ := ho
  rw [hl] at h1 h2 h3
  rw [h3]
  show some d.chains = _
  rcases hch.1 with ⟨hm, _⟩ | ⟨hm, _⟩
  · rw [← (g1 hm).1]
    exact (h1 (hs.trans hm)).1
  · rw [← (g2 hm).1]
    exact (h2 (hs.trans hm)).1

/-- C103 is false after sampling again: tables and reports join derived parameters of older samples. -/
theorem C103_resample_violated {pre : Text} (hp : PlainPrefix pre) {w w1 : World} (hw : Completed pre w) (hd : Derived w.log) {num : McmcNumbers} (hn : num.Plain ∧ (Command.mcmc num).Clean) {o : Oracle} {s : Option Source}
    (hm : mcmcCmd pre num o w = (.ok s, w1)) {u : Used} {w' : World} (h : (∃ types request o, tablesCmd pre types request o w1 = (.ok u, w')) ∨ ∃ request o, reportCmd request o w1 = (.ok u, w'))
    (hs : u.sampler = "mcmc".toList) : ∃ d, u.derived = some d ∧ d ≠ u.chains := by
  have hw1 : Completed pre w1 := .step w w1 (.mcmc num) o hw hn.1 hn.2 (by
    show void _ w = _
    unfold void
    rw [bind_of_ok hm]
    rfl)
  have ho : Origin w1.log u := by
    rcases h with ⟨types, request, o, h⟩ | ⟨request, o, h⟩
    · exact (tables_origin hp hw1 h).2
    · exact (report_origin hp hw1 h).2.1
  obtain ⟨h1, _, h3⟩ := ho
  obtain ⟨d, hd⟩ := lastDerive_some hd
  rw [(mcmc_log hm).1] at h1 h3
  refine ⟨d, h3.trans hd, fun he => ?_⟩
  have h4 := (h1 hs).1
  have h5 := fresh_of_completed hp hw _ (lastDerive_mem hd) _ rfl
  have h6 : u.chains = ⟨.mcmc, w.clock⟩ := (Option.some.inj h4).symm
  rw [he, h6] at h5
  simp at h5

example : succeeds (tablesCmd somePrefix [.params] "auto".toList noFailure) (runCommands [.fit, .mcmc someNumbers, .derive "auto".toList true, .mcmc someNumbers] emptyWorld) = true := by decide +kernel

end Radvel
