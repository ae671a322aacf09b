import Verif.Lemmas.PipelineFull

/-! Helper lemmas for what tables, reports and derived parameters are made from. -/

namespace Radvel

theorem notRan_of {pre : Text} {c : Config} {log : List Event} (hk : ∀ s ∈ c.keys, ∃ ev ∈ log, ev.section_ = s) (hs : FullS pre c log) :
    ∀ t, t = "mcmc".toList ∨ t = "ns".toList → (Ran c t ∧ Sampled t log) ∨ (NotRan c t ∧ ¬ Sampled t log) := by
  intro t ht
  by_cases h : Sampled t log
  · exact .inl ⟨(full_sampler hs h).1, h⟩
  · refine .inr ⟨.inl fun hm => h ?_, h⟩
    rcases ht with rfl | rfl
    · exact .inl ⟨rfl, mcmc_of (hk _ hm)⟩
    · exact .inr ⟨rfl, ns_of (hk _ hm)⟩

theorem pick_chosen {pre : Text} {c : Config} {log : List Event} (hk : ∀ s ∈ c.keys, ∃ ev ∈ log, ev.section_ = s) (hs : FullS pre c log) {request s : Text} (h : Chosen log request s) : pickSampler request c = .ok s := by
  obtain ⟨h1, h2⟩ := h
  have hr := (full_sampler hs h1).1
  have hst : ∃ t, (s = "mcmc".toList ∧ t = "ns".toList) ∨ (s = "ns".toList ∧ t = "mcmc".toList) := by
    rcases h1 with ⟨rfl, _⟩ | ⟨rfl, _⟩
    · exact ⟨_, .inl ⟨rfl, rfl⟩⟩
    · exact ⟨_, .inr ⟨rfl, rfl⟩⟩
  obtain ⟨t, ht⟩ := hst
  have hall := notRan_of hk hs t (by rcases ht with ⟨_, rfl⟩ | ⟨_, rfl⟩ <;> simp)
  have hreq := C82_requested c s t ht hr
  rcases h2 with rfl | ⟨rfl, h2⟩
  · exact hreq.1 (by rcases hall with h | h; exact .inl h.1; exact .inr h.1)
  · rcases hall with ⟨hran, hsam⟩ | ⟨hnot, _⟩
    · rcases ht with ⟨rfl, rfl⟩ | ⟨rfl, rfl⟩
      · exact C82_both_violated c hr hran
      · rcases h2 with h | h
        · exact absurd h (by decide)
        · rcases hsam with ⟨_, h'⟩ | ⟨h', _⟩
          · exact absurd h' h
          · exact absurd h' (by decide)
    · exact (hreq.2 hnot).1

theorem chosen_pick {pre : Text} {c : Config} {log : List Event} (hk : ∀ s ∈ c.keys, ∃ ev ∈ log, ev.section_ = s) (hs : FullS pre c log) {request s : Text} (h : pickSampler request c = .ok s) : Chosen log request s := by
  have h1 := sampled_of hk h
  refine ⟨h1, ?_⟩
  rcases (C82_sound request c s h).2.1 with h2 | rfl
  · exact .inl h2
  · refine .inr ⟨rfl, ?_⟩
    by_cases hm : ∃ n, Event.mcmc n ∈ log
    · left
      have := pick_chosen hk hs (request := "auto".toList) (s := "mcmc".toList) ⟨.inl ⟨rfl, hm⟩, .inr ⟨rfl, .inl rfl⟩⟩
      rw [this] at h
      exact (Except.ok.inj h).symm
    · exact .inr hm

/-- What `u` must be for this history. -/
def Origin (log : List Event) (u : Used) : Prop :=
  (u.sampler = "mcmc".toList → lastMcmc log = some u.chains ∧ lastFitOrMcmc log = some u.post) ∧ (u.sampler = "ns".toList → lastNs log = some u.chains ∧ lastNs log = some u.post) ∧ u.derived = lastDerive log

theorem has_derive {pre : Text} {c : Config} {log : List Event} (hk : ∀ s ∈ c.keys, ∃ ev ∈ log, ev.section_ = s) (hs : FullS pre c log) : c.has "derive".toList = true ↔ Derived log := by
  constructor
  · intro h
    exact derived_of (hk _ ((Dict.has_iff _ _).1 h))
  · rintro ⟨s, h⟩
    exact (Dict.has_iff _ _).2 (hs.keys _ h)

theorem lastDerive_none {log : List Event} (h : ¬ Derived log) : lastDerive log = none := by
  unfold Derived at h
  induction log with
  | nil => rfl
  | cons ev log ih => cases ev <;> simp at h <;> exact ih (by simpa using h)

theorem join_result {pre : Text} {w : World} {c : Config} (hk : ∀ s ∈ c.keys, ∃ ev ∈ w.log, ev.section_ = s) (hs : FullS pre c w.log) (hf : FullF pre w.files w.log) : joinDerived c w = (.ok (lastDerive w.log), w) := by
  by_cases hd : Derived w.log
  · obtain ⟨h1, h2⟩ := hs.derive hd
    obtain ⟨s, hl⟩ := lastDerive_some hd
    unfold joinDerived
    rw [if_pos ((has_derive hk hs).2 hd), bind_of_ok (show lift (getBoolean c "derive".toList "run".toList) w = (.ok true, w) by unfold lift; rw [getBoolean_value h1])]
    rw [if_pos rfl, bind_of_ok (show lift (getOption c "derive".toList "chainfile".toList) w = (.ok (pathOf pre "_derived.csv.bz2"), w) by unfold lift; rw [getOption_value h2 (by decide)])]
    rw [bind_of_ok (show readDerived (pathOf pre "_derived.csv.bz2") w = (.ok s, w) by unfold readDerived; rw [hf.derive s hl]), hl]
    rfl
  · unfold joinDerived
    rw [if_neg (fun h => hd ((has_derive hk hs).1 h)), lastDerive_none hd]
    rfl

/-- Reading the results of a sampler that has been run always succeeds. -/
theorem results_full {pre : Text} {w : World} {c : Config} (hk : ∀ s ∈ c.keys, ∃ ev ∈ w.log, ev.section_ = s) (hs : FullS pre c w.log) (hf : FullF pre w.files w.log) {s : Text} (h : Sampled s w.log) :
    ∃ u, readResults c s w = (.ok u, w) ∧ u.sampler = s ∧ Origin w.log u := by
  have hj := join_result hk hs hf
  rcases h with ⟨rfl, hm⟩ | ⟨rfl, hm⟩
  · obtain ⟨ch, hch⟩ := lastMcmc_some hm
    obtain ⟨po, hpo⟩ := lastFitOrMcmc_some (.inr hm)
    obtain ⟨d, hd⟩ := hf.post po hpo
    rcases (full_sampler hs (.inl ⟨rfl, hm⟩)).2 with ⟨_, h1, h2⟩ | ⟨h', _⟩
    · refine ⟨⟨"mcmc".toList, ch, po, lastDerive w.log⟩, ?_, rfl, fun _ => ⟨hch, hpo⟩, fun h => absurd h (by dsimp only; decide), rfl⟩
      unfold readResults
      rw [bind_of_ok (show lift (getOption c "mcmc".toList "chainfile".toList) w = (.ok _, w) by unfold lift; rw [h1]), bind_of_ok (show readChains _ w = (.ok ch, w) by unfold readChains; rw [(hf.chains ch hch).1]),
        bind_of_ok (show lift (getOption c "mcmc".toList "postfile".toList) w = (.ok _, w) by unfold lift; rw [h2]), bind_of_ok (show readPost _ w = (.ok (po, d), w) by unfold readPost; rw [hd]), bind_of_ok hj]
      rfl
    · exact absurd h' (by decide)
  · obtain ⟨ch, hch⟩ := lastNs_some hm
    obtain ⟨⟨d, hd⟩, hc'⟩ := hf.ns ch hch
    rcases (full_sampler hs (.inr ⟨rfl, hm⟩)).2 with ⟨h', _⟩ | ⟨_, h1, h2⟩
    · exact absurd h' (by decide)
    · refine ⟨⟨"ns".toList, ch, ch, lastDerive w.log⟩, ?_, rfl, fun h => absurd h (by dsimp only; decide), fun _ => ⟨hch, hch⟩, rfl⟩
      unfold readResults
      rw [bind_of_ok (show lift (getOption c "ns".toList "chainfile".toList) w = (.ok _, w) by unfold lift; rw [h1]), bind_of_ok (show readChains _ w = (.ok ch, w) by unfold readChains; rw [hc']),
        bind_of_ok (show lift (getOption c "ns".toList "postfile".toList) w = (.ok _, w) by unfold lift; rw [h2]), bind_of_ok (show readPost _ w = (.ok (ch, d), w) by unfold readPost; rw [hd]), bind_of_ok hj]
      rfl

theorem results_origin {pre : Text} {w w' : World} {c : Config} (hk : ∀ s ∈ c.keys, ∃ ev ∈ w.log, ev.section_ = s) (hs : FullS pre c w.log) (hf : FullF pre w.files w.log) {s : Text} (h : Sampled s w.log) {u : Used}
    (hu : readResults c s w = (.ok u, w')) : u.sampler = s ∧ Origin w.log u := by
  obtain ⟨u', h1, h2, h3⟩ := results_full hk hs hf h
  rw [h1] at hu
  cases hu
  exact ⟨h2, h3⟩

/-- The criteria of convergence can be read. -/
theorem criteria_full {pre : Text} {w : World} {c : Config} (hs : FullS pre c w.log) {s : Text} (h : Sampled s w.log) : readCriteria c s w = (.ok (), w) := by
  unfold readCriteria
  split_ifs with hm
  · subst hm
    rcases h with ⟨_, hm⟩ | ⟨h', _⟩
    · obtain ⟨_, _, _, _, h5, _⟩ := hs.mcmc hm
      obtain ⟨v1, h1⟩ := getOption_some (h5 "minafactor".toList (by simp)) (by decide)
      obtain ⟨v2, h2⟩ := getOption_some (h5 "maxarchange".toList (by simp)) (by decide)
      obtain ⟨v3, h3⟩ := getOption_some (h5 "maxgr".toList (by simp)) (by decide)
      obtain ⟨v4, h4⟩ := getOption_some (h5 "mintz".toList (by simp)) (by decide)
      rw [bind_of_ok (show lift _ w = (.ok v1, w) by unfold lift; rw [h1]), bind_of_ok (show lift _ w = (.ok v2, w) by unfold lift; rw [h2]), bind_of_ok (show lift _ w = (.ok v3, w) by unfold lift; rw [h3])]
      unfold void
      rw [bind_of_ok (show lift _ w = (.ok v4, w) by unfold lift; rw [h4])]
      rfl
    · exact absurd h' (by decide)
  · rfl

theorem tables_origin {pre : Text} (hp : PlainPrefix pre) {w : World} (hw : Completed pre w) {types : List TableType} {request : Text} {o : Oracle} {u : Used} {w' : World}
    (h : tablesCmd pre types request o w = (.ok u, w')) : Chosen w.log request u.sampler ∧ Origin w.log u := by
  obtain ⟨c, h0, hc, hk, hs, hf⟩ := full_of_completed hp hw
  obtain ⟨c', h1, h⟩ := load_then h
  rw [h0] at h1
  cases h1
  replace h := work_then h
  obtain ⟨s, h2, h⟩ := lift_then h
  obtain ⟨_, _, h⟩ := still_then (still_criteria _ _) h
  obtain ⟨u', h3, h⟩ := still_then (still_results _ _) h
  obtain ⟨_, w1, _, h⟩ := bind_ok h
  cases h
  have hch := chosen_pick hk hs h2
  obtain ⟨h4, h5⟩ := results_origin hk hs hf hch.1 h3
  rw [h4]
  exact ⟨hch, h5⟩

theorem report_origin {pre : Text} (hp : PlainPrefix pre) {w : World} (hw : Completed pre w) {request : Text} {o : Oracle} {u : Used} {w' : World} (h : reportCmd request o w = (.ok u, w')) :
    Chosen w.log request u.sampler ∧ Origin w.log u ∧ u.post.stage ≠ .fit := by
  obtain ⟨c, h0, hc, hk, hs, hf⟩ := full_of_completed hp hw
  obtain ⟨c', h1, h⟩ := load_then h
  rw [h0] at h1
  cases h1
  obtain ⟨_, _, h⟩ := still_then (still_check _ _) h
  obtain ⟨s, h2, h⟩ := lift_then h
  replace h := work_then h
  obtain ⟨_, _, h⟩ := still_then (still_criteria _ _) h
  obtain ⟨u', h3, h⟩ := still_then (still_results _ _) h
  obtain ⟨_, _, h⟩ := still_then (still_check _ _) h
  obtain ⟨_, h6, h⟩ := still_then (still_maxparams _) h
  replace h := work_then h
  cases h
  have hch := chosen_pick hk hs h2
  obtain ⟨h4, h5⟩ := results_origin hk hs hf hch.1 h3
  rw [h4]
  refine ⟨hch, h5, ?_⟩
  intro hst
  unfold needMaxparams at h6
  rw [if_pos hst] at h6
  cases h6

theorem derive_origin {pre : Text} (hp : PlainPrefix pre) {w : World} (hw : Completed pre w) {request : Text} {stellar : Bool} {o : Oracle} {u : Used} {w' : World}
    (h : deriveCmd pre request stellar o w = (.ok (some u), w')) :
    Chosen w.log request u.sampler ∧ u.derived = some u.chains ∧ w'.log = .derive u.chains :: w.log ∧ w'.clock = w.clock ∧
      (u.sampler = "mcmc".toList → lastMcmc w.log = some u.chains ∧ lastFitOrMcmc w.log = some u.post) ∧ (u.sampler = "ns".toList → lastNs w.log = some u.chains ∧ lastNs w.log = some u.post) := by
  obtain ⟨c, h0, hc, hk, hs, hf⟩ := full_of_completed hp hw
  unfold deriveCmd at h
  obtain ⟨c', h1, h⟩ := load_then h
  rw [h0] at h1
  cases h1
  obtain ⟨s, h2, h⟩ := lift_then h
  replace h := work_then h
  obtain ⟨ppath, h3, h⟩ := lift_then h
  obtain ⟨post, h4, h⟩ := still_then (still_readPost _) h
  obtain ⟨cpath, h5, h⟩ := lift_then h
  obtain ⟨chains, h6, h⟩ := still_then (still_readChains _) h
  have hch := chosen_pick hk hs h2
  split_ifs at h with hst
  · cases h
  · replace h := work_then h
    replace h := write_then h
    replace h := write_then h
    replace h := work_then h
    replace h := write_then h
    obtain ⟨_, w2, h7, h⟩ := bind_ok h
    cases h
    have hlog : w'.log = .derive chains :: w.log ∧ w'.clock = w.clock := by
      unfold complete at h7
      split at h7
      · cases h7
      · cases h7
        exact ⟨rfl, rfl⟩
    refine ⟨hch, rfl, hlog.1, hlog.2, ?_, ?_⟩
    · intro hm
      dsimp only at hm ⊢
      subst hm
      rcases (full_sampler hs hch.1).2 with ⟨_, e1, e2⟩ | ⟨h', _⟩
      · rw [h3] at e2
        rw [h5] at e1
        cases e1
        cases e2
        have hmem : ∃ n, Event.mcmc n ∈ w.log := by
          rcases hch.1 with ⟨_, h⟩ | ⟨h, _⟩
          · exact h
          · exact absurd h (by decide)
        obtain ⟨a, ha⟩ := lastMcmc_some hmem
        obtain ⟨b, hb⟩ := lastFitOrMcmc_some (.inr hmem)
        obtain ⟨d, hd⟩ := hf.post b hb
        have r1 := readChains_ok h6
        have r2 := readPost_ok h4
        rw [(hf.chains a ha).1] at r1
        rw [hd] at r2
        cases r1
        rw [ha, hb, (Content.post.inj (Option.some.inj r2)).1]
        exact ⟨rfl, rfl⟩
      · exact absurd h' (by decide)
    · intro hm
      dsimp only at hm ⊢
      subst hm
      rcases (full_sampler hs hch.1).2 with ⟨h', _⟩ | ⟨_, e1, e2⟩
      · exact absurd h' (by decide)
      · rw [h3] at e2
        rw [h5] at e1
        cases e1
        cases e2
        have hmem : ∃ n, Event.ns n ∈ w.log := by
          rcases hch.1 with ⟨h, _⟩ | ⟨_, h⟩
          · exact absurd h (by decide)
          · exact h
        obtain ⟨a, ha⟩ := lastNs_some hmem
        obtain ⟨⟨d, hd⟩, hd2⟩ := hf.ns a ha
        have r1 := readChains_ok h6
        have r2 := readPost_ok h4
        rw [hd2] at r1
        rw [hd] at r2
        cases r1
        rw [ha, (Content.post.inj (Option.some.inj r2)).1]
        exact ⟨rfl, rfl⟩

/-- The run that an event belongs to. -/
def Event.runNo : Event → Option Nat
  | .fit n => some n
  | .mcmc n => some n
  | .ns n => some n
  | .derive s => some s.run
  | _ => none

/-- All runs so far are before the clock. -/
def RunsBefore (w : World) : Prop := ∀ ev ∈ w.log, ∀ n, ev.runNo = some n → n < w.clock

theorem complete_log {sec : Text} {vars : List (Text × Text)} {ev : Event} {w w' : World} {u : Unit} (h : complete sec vars ev w = (.ok u, w')) : w'.log = ev :: w.log ∧ w'.clock = w.clock := by
  unfold complete at h
  split at h
  · cases h
  · cases h
    exact ⟨rfl, rfl⟩

/-- A step that keeps freshness. -/
def FreshSteady {α : Type} (m : Run α) : Prop := ∀ w, RunsBefore w → RunsBefore (m w).2

theorem fr_bind {α β : Type} {m : Run α} {f : α → Run β} (hm : FreshSteady m) (hf : ∀ a, FreshSteady (f a)) : FreshSteady (m >>= f) := by
  intro w hw
  rw [run_bind]
  have h1 := hm w hw
  rcases h : m w with ⟨r, w1⟩
  rw [h] at h1
  rcases r with e | a
  · exact h1
  · exact hf a w1 h1

theorem fr_still {α : Type} {m : Run α} (h : Still m) : FreshSteady m := fun w hw => by rw [h w]; exact hw

theorem fr_write (p : Text) (c : Content) : FreshSteady (writeR p c) := fun _ hw => hw

theorem fr_complete {sec : Text} {vars : List (Text × Text)} {ev : Event} (hev : ev.runNo = none) : FreshSteady (complete sec vars ev) := by
  intro w hw
  unfold complete
  split
  · exact hw
  · intro e he n hn
    rcases List.mem_cons.1 he with rfl | he
    · rw [hev] at hn; cases hn
    · exact hw e he n hn

theorem fr_plotLoop (pre : Text) (c : Config) (request : Text) (post : Source × Option Source) (o : Oracle) (ts : List PlotType) : FreshSteady (plotLoop pre c request post o ts) := by
  induction ts with
  | nil => exact fr_still (still_pure _)
  | cons t ts ih =>
    refine fr_bind ?_ fun _ => ih
    exact fr_bind (fr_still (still_plotInputs _ _ _ _)) fun _ => fr_bind (fr_still (still_work _ _)) fun _ => fr_bind (fr_write _ _) fun _ => fr_complete rfl

theorem fr_plots (pre : Text) (types : List PlotType) (request : Text) (o : Oracle) : FreshSteady (plotsCmd pre types request o) :=
  fr_bind (fr_still still_load) fun _ => fr_bind (fr_still (still_work _ _)) fun _ => fr_bind (fr_still (still_lift _)) fun _ => fr_bind (fr_still (still_assert _)) fun _ => fr_bind (fr_still (still_lift _)) fun _ =>
    fr_bind (fr_still (still_readPost _)) fun _ => fr_plotLoop _ _ _ _ _ _

theorem fr_tableLoop (pre : Text) (c : Config) (o : Oracle) (u : Used) (flag : Bool) (ts : List TableType) : FreshSteady (tableLoop_ pre c o u flag ts) := by
  induction ts generalizing flag with
  | nil => exact fr_still (still_pure _)
  | cons t ts ih =>
    exact fr_bind (fr_still (still_tableText _ _ _ _ _)) fun _ => fr_bind (fr_write _ _) fun _ => fr_bind (fr_complete rfl) fun _ => ih _

theorem fr_tables (pre : Text) (types : List TableType) (request : Text) (o : Oracle) : FreshSteady (tablesCmd pre types request o) :=
  fr_bind (fr_still still_load) fun _ => fr_bind (fr_still (still_work _ _)) fun _ => fr_bind (fr_still (still_lift _)) fun _ => fr_bind (fr_still (still_criteria _ _)) fun _ =>
    fr_bind (fr_still (still_results _ _)) fun _ => fr_bind (fr_tableLoop _ _ _ _ _ _) fun _ => fr_still (still_pure _)

theorem fr_ic (text : Text) (o : Oracle) : FreshSteady (icCmd text o) :=
  fr_bind (fr_still still_load) fun _ => fr_bind (fr_still (still_work _ _)) fun _ => fr_bind (fr_still (still_lift _)) fun _ => fr_bind (fr_still (still_assert _)) fun _ => fr_bind (fr_still (still_lift _)) fun _ =>
    fr_bind (fr_still (still_readPost _)) fun _ => fr_bind (fr_still (still_work _ _)) fun _ => fr_bind (fr_complete rfl) fun _ => fr_still (still_pure _)

theorem fit_log {pre : Text} {o : Oracle} {w w' : World} {u : Unit} (h : fitCmd pre o w = (.ok u, w')) : w'.log = .fit w.clock :: w.log ∧ w'.clock = w.clock + 1 := by
  replace h := work_then h
  replace h := work_then h
  replace h := newRun_then h
  replace h := work_then h
  replace h := write_then h
  exact complete_log h

theorem mcmc_log {pre : Text} {num : McmcNumbers} {o : Oracle} {w w' : World} {u : Option Source} (h : mcmcCmd pre num o w = (.ok u, w')) : w'.log = .mcmc w.clock :: w.log ∧ w'.clock = w.clock + 1 := by
  obtain ⟨_, _, h⟩ := load_then h
  replace h := work_then h
  obtain ⟨b, _, h⟩ := lift_then h
  obtain ⟨_, _, h⟩ := still_then (m := startFrom _ b) (by
    unfold startFrom
    exact still_ite _ (still_bind (still_lift _) fun _ => still_bind (still_readPost _) fun _ => still_pure _) (still_pure _)) h
  replace h := work_then h
  replace h := newRun_then h
  replace h := write_then h
  replace h := write_then h
  replace h := work_then h
  replace h := write_then h
  replace h := write_then h
  obtain ⟨_, w2, h2, h⟩ := bind_ok h
  cases h
  exact complete_log h2

theorem ns_log {pre : Text} {kwargs : List (Text × Text)} {o : Oracle} {w w' : World} {u : Unit} (h : nsCmd pre kwargs o w = (.ok u, w')) : w'.log = .ns w.clock :: w.log ∧ w'.clock = w.clock + 1 := by
  obtain ⟨_, _, h⟩ := load_then h
  replace h := work_then h
  replace h := work_then h
  replace h := newRun_then h
  replace h := write_then h
  replace h := write_then h
  replace h := work_then h
  replace h := write_then h
  exact complete_log h

theorem derive_nothing {pre : Text} {request : Text} {stellar : Bool} {o : Oracle} {w w' : World} (h : deriveCmd pre request stellar o w = (.ok none, w')) : w' = w := by
  unfold deriveCmd at h
  obtain ⟨_, _, h⟩ := load_then h
  obtain ⟨_, _, h⟩ := lift_then h
  replace h := work_then h
  obtain ⟨_, _, h⟩ := lift_then h
  obtain ⟨_, _, h⟩ := still_then (still_readPost _) h
  obtain ⟨_, _, h⟩ := lift_then h
  obtain ⟨_, _, h⟩ := still_then (still_readChains _) h
  split_ifs at h with hst
  · cases h
    rfl
  · replace h := work_then h
    replace h := write_then h
    replace h := write_then h
    replace h := work_then h
    replace h := write_then h
    obtain ⟨_, w2, h7, h⟩ := bind_ok h
    cases h

theorem lastMcmc_mem {log : List Event} {s : Source} (h : lastMcmc log = some s) : Event.mcmc s.run ∈ log ∧ s.stage = .mcmc := by
  induction log with
  | nil => cases h
  | cons ev log ih =>
    cases ev with
    | mcmc n => cases h; exact ⟨by simp, rfl⟩
    | fit n => exact ⟨List.mem_cons_of_mem _ (ih h).1, (ih h).2⟩
    | ns n => exact ⟨List.mem_cons_of_mem _ (ih h).1, (ih h).2⟩
    | ic => exact ⟨List.mem_cons_of_mem _ (ih h).1, (ih h).2⟩
    | derive n => exact ⟨List.mem_cons_of_mem _ (ih h).1, (ih h).2⟩
    | plot n => exact ⟨List.mem_cons_of_mem _ (ih h).1, (ih h).2⟩
    | table n => exact ⟨List.mem_cons_of_mem _ (ih h).1, (ih h).2⟩

theorem lastNs_mem {log : List Event} {s : Source} (h : lastNs log = some s) : Event.ns s.run ∈ log ∧ s.stage = .ns := by
  induction log with
  | nil => cases h
  | cons ev log ih =>
    cases ev with
    | ns n => cases h; exact ⟨by simp, rfl⟩
    | fit n => exact ⟨List.mem_cons_of_mem _ (ih h).1, (ih h).2⟩
    | mcmc n => exact ⟨List.mem_cons_of_mem _ (ih h).1, (ih h).2⟩
    | ic => exact ⟨List.mem_cons_of_mem _ (ih h).1, (ih h).2⟩
    | derive n => exact ⟨List.mem_cons_of_mem _ (ih h).1, (ih h).2⟩
    | plot n => exact ⟨List.mem_cons_of_mem _ (ih h).1, (ih h).2⟩
    | table n => exact ⟨List.mem_cons_of_mem _ (ih h).1, (ih h).2⟩

theorem lastDerive_mem {log : List Event} {s : Source} (h : lastDerive log = some s) : Event.derive s ∈ log := by
  induction log with
  | nil => cases h
  | cons ev log ih =>
    cases ev with
    | derive n => cases h; simp
    | fit n => exact List.mem_cons_of_mem _ (ih h)
    | mcmc n => exact List.mem_cons_of_mem _ (ih h)
    | ns n => exact List.mem_cons_of_mem _ (ih h)
    | ic => exact List.mem_cons_of_mem _ (ih h)
    | plot n => exact List.mem_cons_of_mem _ (ih h)
    | table n => exact List.mem_cons_of_mem _ (ih h)

theorem lastFitOrMcmc_mcmc {log : List Event} {s : Source} (h : lastFitOrMcmc log = some s) (hs : s.stage ≠ .fit) : lastMcmc log = some s := by
  induction log with
  | nil => cases h
  | cons ev log ih =>
    cases ev with
    | mcmc n => cases h; rfl
    | fit n => cases h; exact absurd rfl hs
    | ns n => exact ih h
    | ic => exact ih h
    | derive n => exact ih h
    | plot n => exact ih h
    | table n => exact ih h

theorem fresh_of_completed {pre : Text} (hp : PlainPrefix pre) {w : World} (h : Completed pre w) : RunsBefore w := by
  induction h with
  | start files clock => intro ev hev; cases hev
  | step w w' c o hw h1 h2 h ih =>
    have fr : ∀ {α : Type} (m : Run α) (a : α), FreshSteady m → m w = (.ok a, w') → RunsBefore w' := by
      intro α m a hm h
      have := hm w ih
      rw [h] at this
      exact this
    have new : ∀ ev, ev.runNo = some w.clock → w'.log = ev :: w.log → w'.clock = w.clock + 1 → RunsBefore w' := by
      intro ev hev hl hc e he n hn
      rw [hl] at he
      rw [hc]
      rcases List.mem_cons.1 he with rfl | he
      · rw [hev] at hn; cases hn; omega
      · have := ih e he n hn
        omega
    cases c with
    | fit => exact new _ rfl (fit_log h).1 (fit_log h).2
    | mcmc num => obtain ⟨a, h⟩ := void_ok h; exact new _ rfl (mcmc_log h).1 (mcmc_log h).2
    | ns kwargs => exact new _ rfl (ns_log h).1 (ns_log h).2
    | ic text => obtain ⟨a, h⟩ := void_ok h; exact fr _ _ (fr_ic text o) h
    | plots types request => exact fr _ _ (fr_plots pre types request o) h
    | tables types request => obtain ⟨a, h⟩ := void_ok h; exact fr _ _ (fr_tables pre types request o) h
    | derive request stellar =>
      obtain ⟨a, h⟩ := void_ok h
      rcases a with _ | u
      · rw [derive_nothing h]; exact ih
      · obtain ⟨hch, _, hl, hc, hm, hn⟩ := derive_origin hp hw h
        intro e he n hn'
        rw [hl] at he
        rw [hc]
        rcases List.mem_cons.1 he with rfl | he
        · cases hn'
          rcases hch.1 with ⟨hs, _⟩ | ⟨hs, _⟩
          · exact ih _ (lastMcmc_mem (hm hs).1).1 _ rfl
          · exact ih _ (lastNs_mem (hn hs).1).1 _ rfl
        · exact ih e he n hn'
    | report request => obtain ⟨a, h⟩ := void_ok h; exact fr _ _ (fr_still (still_report request o)) h

end Radvel
