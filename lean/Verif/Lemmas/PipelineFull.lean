import Verif.Props.Pipeline

/-! The invariant of pipelines whose commands all succeed: what the status says, and where the content of each file comes from. -/

namespace Radvel

/-- What the status says. -/
structure FullS (pre : Text) (c : Config) (log : List Event) : Prop where
  keys : ∀ ev ∈ log, ev.section_ ∈ c.keys
  fit : Fitted log → c.value "fit".toList "run".toList = some trueText ∧ c.value "fit".toList "postfile".toList = some (pathOf pre "_post_obj.pkl")
  mcmc : (∃ n, Event.mcmc n ∈ log) → c.value "mcmc".toList "run".toList = some trueText ∧ c.value "mcmc".toList "postfile".toList = some (pathOf pre "_post_obj.pkl") ∧
    c.value "mcmc".toList "chainfile".toList = some (pathOf pre "_chains.csv.bz2") ∧ c.value "mcmc".toList "autocorrfile".toList = some (pathOf pre "_autocorr.csv") ∧
    (∀ k ∈ ["minafactor".toList, "maxarchange".toList, "maxgr".toList, "mintz".toList], (c.value "mcmc".toList k).isSome = true) ∧
    ∀ k ∈ ["nwalkers".toList, "nensembles".toList], ∃ v n, c.value "mcmc".toList k = some v ∧ IntText v n
  ns : (∃ n, Event.ns n ∈ log) → c.value "ns".toList "run".toList = some trueText ∧ c.value "ns".toList "postfile".toList = some (pathOf pre "_post_obj_ns.pkl") ∧
    c.value "ns".toList "chainfile".toList = some (pathOf pre "_chains_ns.csv.bz2")
  derive : Derived log → c.value "derive".toList "run".toList = some trueText ∧ c.value "derive".toList "chainfile".toList = some (pathOf pre "_derived.csv.bz2")
  ic : Event.ic ∈ log → (c.value "ic_compare".toList "ic".toList).isSome = true

/-- Where the content of the files comes from. -/
structure FullF (pre : Text) (files : Dict Text Content) (log : List Event) : Prop where
  post : ∀ s, lastFitOrMcmc log = some s → ∃ d, files.get? (pathOf pre "_post_obj.pkl") = some (.post s d)
  chains : ∀ s, lastMcmc log = some s → files.get? (pathOf pre "_chains.csv.bz2") = some (.chains s) ∧ files.get? (pathOf pre "_autocorr.csv") = some (.autocorr s)
  ns : ∀ s, lastNs log = some s → (∃ d, files.get? (pathOf pre "_post_obj_ns.pkl") = some (.post s d)) ∧ files.get? (pathOf pre "_chains_ns.csv.bz2") = some (.chains s)
  derive : ∀ s, lastDerive log = some s → files.get? (pathOf pre "_derived.csv.bz2") = some (.derivedChains s)

/-- The whole invariant. -/
def Full (pre : Text) (w : World) : Prop := ∃ c, loadStatus w.stat = .ok c ∧ PlainConfig c ∧ (∀ s ∈ c.keys, ∃ ev ∈ w.log, ev.section_ = s) ∧ FullS pre c w.log ∧ FullF pre w.files w.log

/-- The value that a save leaves for an option of its section, if it sets it. -/
def savedValue (vars : List (Text × Text)) (k : Text) : Option Text := (vars.reverse.find? fun o => lower o.1 = k).map Prod.snd

/-- What the saved options of an event must have. -/
def VarsFor (pre : Text) (vars : List (Text × Text)) : Event → Prop
  | .fit _ => savedValue vars "run".toList = some trueText ∧ savedValue vars "postfile".toList = some (pathOf pre "_post_obj.pkl")
  | .mcmc _ => savedValue vars "run".toList = some trueText ∧ savedValue vars "postfile".toList = some (pathOf pre "_post_obj.pkl") ∧ savedValue vars "chainfile".toList = some (pathOf pre "_chains.csv.bz2") ∧
    savedValue vars "autocorrfile".toList = some (pathOf pre "_autocorr.csv") ∧ (∀ k ∈ ["minafactor".toList, "maxarchange".toList, "maxgr".toList, "mintz".toList], (savedValue vars k).isSome = true) ∧
    ∀ k ∈ ["nwalkers".toList, "nensembles".toList], ∃ v n, savedValue vars k = some v ∧ IntText v n
  | .ns _ => savedValue vars "run".toList = some trueText ∧ savedValue vars "postfile".toList = some (pathOf pre "_post_obj_ns.pkl") ∧ savedValue vars "chainfile".toList = some (pathOf pre "_chains_ns.csv.bz2")
  | .derive _ => savedValue vars "run".toList = some trueText ∧ savedValue vars "chainfile".toList = some (pathOf pre "_derived.csv.bz2")
  | .ic => (savedValue vars "ic".toList).isSome = true
  | _ => True

theorem value_step {c : Config} (hc : PlainConfig c) {sec : Text} {vars : List (Text × Text)} (hx : Save.Plain ⟨sec, vars⟩) (s k : Text) :
    Config.value (stepConfig c ⟨sec, vars⟩) s k = if sec = s then (savedValue vars k).or (Config.value c s k) else Config.value c s k := (stepConfig_spec hc hx).2.1 s k

theorem fullS_step {pre : Text} {c : Config} {log : List Event} (hc : PlainConfig c) {ev : Event} {vars : List (Text × Text)} (hx : Save.Plain ⟨ev.section_, vars⟩) (hf : FullS pre c log)
    (hv : VarsFor pre vars ev) : FullS pre (stepConfig c ⟨ev.section_, vars⟩) (ev :: log) := by
  have hval := value_step hc hx
  have hne : ∀ s k, ev.section_ ≠ s → Config.value (stepConfig c ⟨ev.section_, vars⟩) s k = Config.value c s k := by
    intro s k h
    rw [hval, if_neg h]
  have heq : ∀ s k v, ev.section_ = s → savedValue vars k = some v → Config.value (stepConfig c ⟨ev.section_, vars⟩) s k = some v := by
    intro s k v h hs
    rw [hval, if_pos h, hs]
    rfl
  have hsome : ∀ s k, ev.section_ = s → (savedValue vars k).isSome = true → (Config.value (stepConfig c ⟨ev.section_, vars⟩) s k).isSome = true := by
    intro s k h hs
    rw [hval, if_pos h]
    rcases hv : savedValue vars k with _ | v
    · rw [hv] at hs; cases hs
    · rfl
  have tail : ∀ (P : Event), P ∈ ev :: log → P ≠ ev → P ∈ log := by
    intro P h1 h2
    rcases List.mem_cons.1 h1 with h | h
    · exact absurd h h2
    · exact h
  refine ⟨?_, ?_, ?_, ?_, ?_, ?_⟩
  · intro e he
    rw [(stepConfig_spec hc hx).2.2]
    rcases List.mem_cons.1 he with rfl | he
    · exact .inl rfl
    · exact .inr (hf.keys e he)
  · rintro ⟨n, hn⟩
    by_cases he : ev.section_ = "fit".toList
    · cases ev with
      | fit m => exact ⟨heq _ _ _ he hv.1, heq _ _ _ he hv.2⟩
      | mcmc m => exact absurd he (by dsimp only [Event.section_]; decide)
      | ns m => exact absurd he (by dsimp only [Event.section_]; decide)
      | ic => exact absurd he (by dsimp only [Event.section_]; decide)
      | derive m => exact absurd he (by dsimp only [Event.section_]; decide)
      | plot m => exact absurd he (by dsimp only [Event.section_]; decide)
      | table m => exact absurd he (by dsimp only [Event.section_]; decide)
    · rw [hne _ _ he, hne _ _ he]
      exact hf.fit ⟨n, tail _ hn (by rintro rfl; exact he rfl)⟩
  · rintro ⟨n, hn⟩
    by_cases he : ev.section_ = "mcmc".toList
    · cases ev with
      | mcmc m =>
        obtain ⟨v1, v2, v3, v4, v5, v6⟩ := hv
        refine ⟨heq _ _ _ he v1, heq _ _ _ he v2, heq _ _ _ he v3, heq _ _ _ he v4, fun k hk => hsome _ _ he (v5 k hk), ?_⟩
        intro k hk
        obtain ⟨v, i, h1, h2⟩ := v6 k hk
        exact ⟨v, i, heq _ _ _ he h1, h2⟩
      | fit m => exact absurd he (by dsimp only [Event.section_]; decide)
      | ns m => exact absurd he (by dsimp only [Event.section_]; decide)
      | ic => exact absurd he (by dsimp only [Event.section_]; decide)
      | derive m => exact absurd he (by dsimp only [Event.section_]; decide)
      | plot m => exact absurd he (by dsimp only [Event.section_]; decide)
      | table m => exact absurd he (by dsimp only [Event.section_]; decide)
    · simp only [hne _ _ he]
      exact hf.mcmc ⟨n, tail _ hn (by rintro rfl; exact he rfl)⟩
  · rintro ⟨n, hn⟩
    by_cases he : ev.section_ = "ns".toList
    · cases ev with
      | ns m => exact ⟨heq _ _ _ he hv.1, heq _ _ _ he hv.2.1, heq _ _ _ he hv.2.2⟩
      | mcmc m => exact absurd he (by dsimp only [Event.section_]; decide)
      | fit m => exact absurd he (by dsimp only [Event.section_]; decide)
      | ic => exact absurd he (by dsimp only [Event.section_]; decide)
      | derive m => exact absurd he (by dsimp only [Event.section_]; decide)
      | plot m => exact absurd he (by dsimp only [Event.section_]; decide)
      | table m => exact absurd he (by dsimp only [Event.section_]; decide)
    · simp only [hne _ _ he]
      exact hf.ns ⟨n, tail _ hn (by rintro rfl; exact he rfl)⟩
  · rintro ⟨n, hn⟩
    by_cases he : ev.section_ = "derive".toList
    · cases ev with
      | derive m => exact ⟨heq _ _ _ he hv.1, heq _ _ _ he hv.2⟩
      | mcmc m => exact absurd he (by dsimp only [Event.section_]; decide)
      | fit m => exact absurd he (by dsimp only [Event.section_]; decide)
      | ic => exact absurd he (by dsimp only [Event.section_]; decide)
      | ns m => exact absurd he (by dsimp only [Event.section_]; decide)
      | plot m => exact absurd he (by dsimp only [Event.section_]; decide)
      | table m => exact absurd he (by dsimp only [Event.section_]; decide)
    · simp only [hne _ _ he]
      exact hf.derive ⟨n, tail _ hn (by rintro rfl; exact he rfl)⟩
  · intro hn
    by_cases he : ev.section_ = "ic_compare".toList
    · cases ev with
      | ic => exact hsome _ _ he hv
      | mcmc m => exact absurd he (by dsimp only [Event.section_]; decide)
      | fit m => exact absurd he (by dsimp only [Event.section_]; decide)
      | derive m => exact absurd he (by dsimp only [Event.section_]; decide)
      | ns m => exact absurd he (by dsimp only [Event.section_]; decide)
      | plot m => exact absurd he (by dsimp only [Event.section_]; decide)
      | table m => exact absurd he (by dsimp only [Event.section_]; decide)
    · simp only [hne _ _ he]
      exact hf.ic (tail _ hn (by rintro rfl; exact he rfl))

/-- The files that the invariant speaks about. -/
def kept : List String := ["_post_obj.pkl", "_chains.csv.bz2", "_autocorr.csv", "_post_obj_ns.pkl", "_chains_ns.csv.bz2", "_derived.csv.bz2"]

theorem pathOf_inj {pre : Text} {a b : String} (h : pathOf pre a = pathOf pre b) : a.toList = b.toList := List.append_cancel_left h

theorem pathOf_ne {pre : Text} {a b : String} (h : a.toList ≠ b.toList) : pathOf pre a ≠ pathOf pre b := fun h' => h (pathOf_inj h')

theorem fullF_other {pre : Text} {files : Dict Text Content} {log : List Event} (hf : FullF pre files log) (a : String) (c : Content) (ha : ∀ k ∈ kept, a.toList ≠ k.toList) : FullF pre (Dict.set files (pathOf pre a) c) log := by
  have hg : ∀ k ∈ kept, Dict.get? (Dict.set files (pathOf pre a) c) (pathOf pre k) = Dict.get? files (pathOf pre k) := fun k hk => Dict.get?_set_ne _ _ (pathOf_ne (ha k hk))
  refine ⟨?_, ?_, ?_, ?_⟩
  · intro s hs; rw [hg _ (by decide)]; exact hf.post s hs
  · intro s hs; rw [hg _ (by decide), hg _ (by decide)]; exact hf.chains s hs
  · intro s hs; rw [hg _ (by decide), hg _ (by decide)]; exact hf.ns s hs
  · intro s hs; rw [hg _ (by decide)]; exact hf.derive s hs

/-- Completing a step: the status part of the invariant. -/
theorem complete_full {pre : Text} {w : World} {c : Config} (h0 : loadStatus w.stat = .ok c) (hc : PlainConfig c) (hk : ∀ s ∈ c.keys, ∃ ev ∈ w.log, ev.section_ = s) (hs : FullS pre c w.log) {ev : Event}
    {vars : List (Text × Text)} (hx : Save.Plain ⟨ev.section_, vars⟩) (hv : VarsFor pre vars ev) (hf : FullF pre w.files (ev :: w.log)) :
    ∃ t, complete ev.section_ vars ev w = (.ok (), { w with stat := some t, log := ev :: w.log }) ∧ Full pre { w with stat := some t, log := ev :: w.log } := by
  obtain ⟨t, h1, h2, h3⟩ := save_plain h0 hc hx
  refine ⟨t, ?_, _, h2, h3, ?_, fullS_step hc hx hs hv, hf⟩
  · unfold complete
    rw [h1]
  · intro s hm
    rcases ((stepConfig_spec hc hx).2.2 s).1 hm with rfl | hm
    · exact ⟨ev, by simp, rfl⟩
    · obtain ⟨ev', h', e'⟩ := hk s hm
      exact ⟨ev', by simp [h'], e'⟩

/-- A step that keeps the invariant, whether it succeeds or not. -/
def FullSteady {α : Type} (pre : Text) (m : Run α) : Prop := ∀ w, Full pre w → Full pre (m w).2

theorem fs_bind {α β : Type} {pre : Text} {m : Run α} {f : α → Run β} (hm : FullSteady pre m) (hf : ∀ a, FullSteady pre (f a)) : FullSteady pre (m >>= f) := by
  intro w hw
  rw [run_bind]
  have h1 := hm w hw
  rcases h : m w with ⟨r, w1⟩
  rw [h] at h1
  rcases r with e | a
  · exact h1
  · exact hf a w1 h1

/-- A step that does not change the world. -/
def Still {α : Type} (m : Run α) : Prop := ∀ w, (m w).2 = w

theorem fs_still {α : Type} {pre : Text} {m : Run α} (h : Still m) : FullSteady pre m := fun w hw => by rw [h w]; exact hw

theorem still_bind {α β : Type} {m : Run α} {f : α → Run β} (hm : Still m) (hf : ∀ a, Still (f a)) : Still (m >>= f) := by
  intro w
  rw [run_bind]
  have h1 := hm w
  rcases h : m w with ⟨r, w1⟩
  rw [h] at h1
  simp only at h1
  subst h1
  rcases r with e | a
  · rfl
  · exact hf a w1

theorem still_pure {α : Type} (a : α) : Still (pure a : Run α) := fun _ => rfl
theorem still_lift {α : Type} (x : Except PyErr α) : Still (lift x) := fun _ => rfl
theorem still_load : Still loadR := fun _ => rfl
theorem still_work (o : Oracle) (k : Work) : Still (work o k) := by intro w; unfold work; split <;> rfl
theorem still_readPost (p : Text) : Still (readPost p) := by intro w; unfold readPost; split <;> rfl
theorem still_readChains (p : Text) : Still (readChains p) := by intro w; unfold readChains; split <;> rfl
theorem still_readAutocorr (p : Text) : Still (readAutocorr p) := by intro w; unfold readAutocorr; split <;> rfl
theorem still_readDerived (p : Text) : Still (readDerived p) := by intro w; unfold readDerived; split <;> rfl
theorem still_assert (b : Bool) : Still (assertR b) := by cases b <;> exact still_lift _
theorem still_check (b : Bool) (e : PyErr) : Still (checkThat b e) := by cases b <;> first | exact still_lift _ | exact still_pure _
theorem still_void {α : Type} {m : Run α} (h : Still m) : Still (void m) := still_bind h fun _ => still_pure _

theorem still_ite {α : Type} (p : Prop) [Decidable p] {m n : Run α} (hm : Still m) (hn : Still n) : Still (if p then m else n) := by
  split_ifs
  · exact hm
  · exact hn

theorem still_plotChains (c : Config) (request : Text) (t : PlotType) : Still (plotChains c request t) := by
  refine still_bind (still_lift _) fun s => still_bind ?_ fun _ => still_bind (still_lift _) fun _ => still_readChains _
  unfold checkSampler
  exact still_ite _ (still_bind (still_lift _) fun _ => still_assert _) (still_bind (still_assert _) fun _ => still_bind (still_lift _) fun _ => still_void (still_readAutocorr _))

theorem still_plotInputs (c : Config) (request : Text) (d : Option Source) (t : PlotType) : Still (plotInputs c request d t) := by
  cases t
  · exact still_ite _ (still_bind (still_lift _) fun _ => still_void (still_readDerived _)) (still_pure _)
  · exact still_void (still_plotChains _ _ _)
  · exact still_void (still_plotChains _ _ _)
  · exact still_bind (still_plotChains _ _ _) fun _ => still_bind (still_lift _) fun _ => still_void (still_lift _)
  · exact still_bind (still_assert _) fun _ => still_bind (still_lift _) fun _ => still_void (still_readDerived _)

theorem still_criteria (c : Config) (s : Text) : Still (readCriteria c s) :=
  still_ite _ (still_bind (still_lift _) fun _ => still_bind (still_lift _) fun _ => still_bind (still_lift _) fun _ => still_void (still_lift _)) (still_pure _)

theorem still_join (c : Config) : Still (joinDerived c) := by
  refine still_ite _ (still_bind (still_lift _) fun _ => ?_) (still_pure _)
  exact still_ite _ (still_bind (still_lift _) fun _ => still_bind (still_readDerived _) fun _ => still_pure _) (still_pure _)

theorem still_results (c : Config) (s : Text) : Still (readResults c s) :=
  still_bind (still_lift _) fun _ => still_bind (still_readChains _) fun _ => still_bind (still_lift _) fun _ => still_bind (still_readPost _) fun _ => still_bind (still_join _) fun _ => still_pure _

theorem still_maxparams (u : Used) : Still (needMaxparams u) := still_ite _ (still_lift _) (still_pure _)

theorem still_tableText (c : Config) (o : Oracle) (u : Used) (flag : Bool) (t : TableType) : Still (tableText c o u flag t) := by
  cases t
  · exact still_bind (still_maxparams _) fun _ => still_bind (still_work _ _) fun _ => still_pure _
  · exact still_bind (still_work _ _) fun _ => still_pure _
  · exact still_bind (still_work _ _) fun _ => still_pure _
  · exact still_bind (still_assert _) fun _ => still_bind (still_work _ _) fun _ => still_pure _
  · exact still_bind (still_assert _) fun _ => still_ite _ (still_bind (still_maxparams _) fun _ => still_bind (still_work _ _) fun _ => still_pure _) (still_pure _)
  · exact still_bind (still_work _ _) fun _ => still_pure _

/-- A report never changes the status file or the output files of the pipeline. -/
theorem still_report (request : Text) (o : Oracle) : Still (reportCmd request o) :=
  still_bind still_load fun _ => still_bind (still_check _ _) fun _ => still_bind (still_lift _) fun _ => still_bind (still_work _ _) fun _ => still_bind (still_criteria _ _) fun _ =>
    still_bind (still_results _ _) fun _ => still_bind (still_check _ _) fun _ => still_bind (still_maxparams _) fun _ => still_bind (still_work _ _) fun _ => still_pure _

theorem fs_write {pre : Text} (a : String) (c : Content) (ha : ∀ k ∈ kept, a.toList ≠ k.toList) : FullSteady pre (writeR (pathOf pre a) c) := by
  rintro w ⟨cfg, h0, hc, hk, hs, hf⟩
  exact ⟨cfg, h0, hc, hk, hs, fullF_other hf a c ha⟩

theorem fs_complete {pre : Text} {ev : Event} {vars : List (Text × Text)} (hx : Save.Plain ⟨ev.section_, vars⟩) (hv : VarsFor pre vars ev) (hl : ∀ log, lastFitOrMcmc (ev :: log) = lastFitOrMcmc log ∧
    lastMcmc (ev :: log) = lastMcmc log ∧ lastNs (ev :: log) = lastNs log ∧ lastDerive (ev :: log) = lastDerive log) : FullSteady pre (complete ev.section_ vars ev) := by
  rintro w ⟨cfg, h0, hc, hk, hs, hf⟩
  obtain ⟨l1, l2, l3, l4⟩ := hl w.log
  obtain ⟨t, h1, h2⟩ := complete_full h0 hc hk hs hx hv ⟨by rw [l1]; exact hf.post, by rw [l2]; exact hf.chains, by rw [l3]; exact hf.ns, by rw [l4]; exact hf.derive⟩
  rw [h1]
  exact h2

theorem fs_plotLoop {pre : Text} (hp : PlainPrefix pre) (c : Config) (request : Text) (post : Source × Option Source) (o : Oracle) (ts : List PlotType) : FullSteady pre (plotLoop pre c request post o ts) := by
  induction ts with
  | nil => exact fs_still (still_pure _)
  | cons t ts ih =>
    refine fs_bind ?_ fun _ => ih
    refine fs_bind (fs_still (still_plotInputs _ _ _ _)) fun _ => fs_bind (fs_still (still_work _ _)) fun _ => fs_bind (fs_write _ _ ?_) fun _ => ?_
    · cases t <;> decide
    · exact fs_complete (ev := .plot t) (plain_plot hp t) trivial fun _ => ⟨rfl, rfl, rfl, rfl⟩

theorem fs_plots {pre : Text} (hp : PlainPrefix pre) (types : List PlotType) (request : Text) (o : Oracle) : FullSteady pre (plotsCmd pre types request o) :=
  fs_bind (fs_still still_load) fun _ => fs_bind (fs_still (still_work _ _)) fun _ => fs_bind (fs_still (still_lift _)) fun _ => fs_bind (fs_still (still_assert _)) fun _ => fs_bind (fs_still (still_lift _)) fun _ =>
    fs_bind (fs_still (still_readPost _)) fun _ => fs_plotLoop hp _ _ _ _ _

theorem fs_tableLoop {pre : Text} (hp : PlainPrefix pre) (c : Config) (o : Oracle) (u : Used) (flag : Bool) (ts : List TableType) : FullSteady pre (tableLoop_ pre c o u flag ts) := by
  induction ts generalizing flag with
  | nil => exact fs_still (still_pure _)
  | cons t ts ih =>
    refine fs_bind (fs_still (still_tableText _ _ _ _ _)) fun _ => fs_bind (fs_write _ _ ?_) fun _ => fs_bind ?_ fun _ => ih _
    · cases t <;> decide
    · exact fs_complete (ev := .table t) (plain_table hp t) trivial fun _ => ⟨rfl, rfl, rfl, rfl⟩

theorem fs_tables {pre : Text} (hp : PlainPrefix pre) (types : List TableType) (request : Text) (o : Oracle) : FullSteady pre (tablesCmd pre types request o) :=
  fs_bind (fs_still still_load) fun _ => fs_bind (fs_still (still_work _ _)) fun _ => fs_bind (fs_still (still_lift _)) fun _ => fs_bind (fs_still (still_criteria _ _)) fun _ =>
    fs_bind (fs_still (still_results _ _)) fun _ => fs_bind (fs_tableLoop hp _ _ _ _ _) fun _ => fs_still (still_pure _)

theorem fs_ic {pre : Text} {text : Text} (h : PlainValue text) (o : Oracle) : FullSteady pre (icCmd text o) :=
  fs_bind (fs_still still_load) fun _ => fs_bind (fs_still (still_work _ _)) fun _ => fs_bind (fs_still (still_lift _)) fun _ => fs_bind (fs_still (still_assert _)) fun _ => fs_bind (fs_still (still_lift _)) fun _ =>
    fs_bind (fs_still (still_readPost _)) fun _ => fs_bind (fs_still (still_work _ _)) fun _ =>
      fs_bind (fs_complete (ev := .ic) (plain_ic h) rfl fun _ => ⟨rfl, rfl, rfl, rfl⟩) fun _ => fs_still (still_pure _)

theorem work_then {β : Type} {o : Oracle} {k : Work} {f : Unit → Run β} {w w' : World} {b : β} (h : (work o k >>= f) w = (.ok b, w')) : f () w = (.ok b, w') := by
  obtain ⟨_, w1, h1, h2⟩ := bind_ok h
  rw [(work_ok h1).1] at h2
  exact h2

theorem load_then {β : Type} {f : Config → Run β} {w w' : World} {b : β} (h : (loadR >>= f) w = (.ok b, w')) : ∃ c, loadStatus w.stat = .ok c ∧ f c w = (.ok b, w') := by
  obtain ⟨c, w1, h1, h2⟩ := bind_ok h
  rw [(loadR_ok h1).2] at h2
  exact ⟨c, (loadR_ok h1).1, h2⟩

theorem lift_then {α β : Type} {x : Except PyErr α} {f : α → Run β} {w w' : World} {b : β} (h : (lift x >>= f) w = (.ok b, w')) : ∃ a, x = .ok a ∧ f a w = (.ok b, w') := by
  obtain ⟨a, w1, h1, h2⟩ := bind_ok h
  rw [(lift_ok h1).2] at h2
  exact ⟨a, (lift_ok h1).1, h2⟩

theorem still_then {α β : Type} {m : Run α} (hm : Still m) {f : α → Run β} {w w' : World} {b : β} (h : (m >>= f) w = (.ok b, w')) : ∃ a, m w = (.ok a, w) ∧ f a w = (.ok b, w') := by
  obtain ⟨a, w1, h1, h2⟩ := bind_ok h
  have h3 := hm w
  rw [h1] at h3
  simp only at h3
  rw [h3] at h1 h2
  exact ⟨a, h1, h2⟩

theorem newRun_then {β : Type} {f : Nat → Run β} {w w' : World} {b : β} (h : (newRun >>= f) w = (.ok b, w')) : f w.clock { w with clock := w.clock + 1 } = (.ok b, w') := h

theorem write_then {β : Type} {p : Text} {c : Content} {f : Unit → Run β} {w w' : World} {b : β} (h : (writeR p c >>= f) w = (.ok b, w')) : f () { w with files := Dict.set w.files p c } = (.ok b, w') := h

theorem readPost_ok {p : Text} {w w' : World} {x : Source × Option Source} (h : readPost p w = (.ok x, w')) : w.files.get? p = some (.post x.1 x.2) := by
  unfold readPost at h
  split at h
  · simp at h
  · rename_i s d hd
    rw [hd]
    have := (Prod.mk.inj h).1
    cases this
    rfl
  · simp at h

theorem readChains_ok {p : Text} {w w' : World} {x : Source} (h : readChains p w = (.ok x, w')) : w.files.get? p = some (.chains x) := by
  unfold readChains at h
  split at h
  · simp at h
  · rename_i s hd
    rw [hd]
    have := (Prod.mk.inj h).1
    cases this
    rfl
  · simp at h

theorem readDerived_ok {p : Text} {w w' : World} {x : Source} (h : readDerived p w = (.ok x, w')) : w.files.get? p = some (.derivedChains x) := by
  unfold readDerived at h
  split at h
  · simp at h
  · rename_i s hd
    rw [hd]
    have := (Prod.mk.inj h).1
    cases this
    rfl
  · simp at h

theorem get?_path (files : Dict Text Content) (pre : Text) (a b : String) (c : Content) :
    Dict.get? (Dict.set files (pathOf pre a) c) (pathOf pre b) = if a.toList = b.toList then some c else Dict.get? files (pathOf pre b) := by
  rw [Dict.get?_set]
  by_cases h : a.toList = b.toList
  · rw [if_pos h, if_pos]
    simp [pathOf, h]
  · rw [if_neg h, if_neg]
    exact fun h' => h (pathOf_inj h')

theorem fit_full {pre : Text} (hp : PlainPrefix pre) (o : Oracle) {w w' : World} {u : Unit} (hw : Full pre w) (h : fitCmd pre o w = (.ok u, w')) : Full pre w' := by
  obtain ⟨cfg, h0, hc, hk, hs, hf⟩ := hw
  replace h := work_then h
  replace h := work_then h
  replace h := newRun_then h
  replace h := work_then h
  replace h := write_then h
  have hfiles : FullF pre (Dict.set w.files (pathOf pre "_post_obj.pkl") (.post ⟨.fit, w.clock⟩ none)) (.fit w.clock :: w.log) := by
    refine ⟨?_, ?_, ?_, ?_⟩
    · intro s hs'
      cases hs'
      exact ⟨none, Dict.get?_set_self _ _ _⟩
    · intro s hs'
      simp only [get?_path]
      exact hf.chains s hs'
    · intro s hs'
      simp only [get?_path]
      exact hf.ns s hs'
    · intro s hs'
      simp only [get?_path]
      exact hf.derive s hs'
  obtain ⟨t, e1, e2⟩ := complete_full (w := { w with clock := w.clock + 1, files := _ }) (ev := .fit w.clock) h0 hc hk hs (plain_fit hp) ⟨rfl, rfl⟩ hfiles
  have := e1.symm.trans h
  cases this
  exact e2

theorem mcmc_full {pre : Text} (hp : PlainPrefix pre) {num : McmcNumbers} (hn : num.Plain) (hi : (∃ n, IntText num.nwalkers n) ∧ ∃ n, IntText num.nensembles n) (o : Oracle) {w w' : World} {u : Option Source}
    (hw : Full pre w) (h : mcmcCmd pre num o w = (.ok u, w')) : Full pre w' := by
  obtain ⟨cfg, h0, hc, hk, hs, hf⟩ := hw
  obtain ⟨_, _, h⟩ := load_then h
  obtain ⟨b, _, h⟩ := lift_then (work_then h)
  obtain ⟨st, _, h⟩ := still_then (m := startFrom _ b) (by
    unfold startFrom
    exact still_ite _ (still_bind (still_lift _) fun _ => still_bind (still_readPost _) fun _ => still_pure _) (still_pure _)) h
  replace h := work_then h
  replace h := newRun_then h
  replace h := write_then h
  replace h := write_then h
  replace h := work_then h
  replace h := write_then h
  replace h := write_then h
  obtain ⟨_, w2, h2, h⟩ := bind_ok h
  cases h
  have hfiles : FullF pre (Dict.set (Dict.set (Dict.set (Dict.set w.files (pathOf pre "_post_summary.csv") .other) (pathOf pre "_post_obj.pkl") (.post ⟨.mcmc, w.clock⟩ (st.bind Prod.snd))) (pathOf pre "_chains.csv.bz2")
      (.chains ⟨.mcmc, w.clock⟩)) (pathOf pre "_autocorr.csv") (.autocorr ⟨.mcmc, w.clock⟩)) (.mcmc w.clock :: w.log) := by
    refine ⟨?_, ?_, ?_, ?_⟩
    · intro s hs'
      cases hs'
      exact ⟨st.bind Prod.snd, by simp only [get?_path]; rfl⟩
    · intro s hs'
      cases hs'
      exact ⟨by simp only [get?_path]; rfl, by simp only [get?_path]; rfl⟩
    · intro s hs'
      simp only [get?_path]
      exact hf.ns s hs'
    · intro s hs'
      simp only [get?_path]
      exact hf.derive s hs'
  have hvars : VarsFor pre (mcmcVars pre num) (.mcmc w.clock) := by
    refine ⟨rfl, rfl, rfl, rfl, ?_, ?_⟩
    · intro k hk'
      simp only [List.mem_cons, List.not_mem_nil, or_false] at hk'
      rcases hk' with rfl | rfl | rfl | rfl <;> rfl
    · intro k hk'
      simp only [List.mem_cons, List.not_mem_nil, or_false] at hk'
      obtain ⟨⟨n1, i1⟩, n2, i2⟩ := hi
      rcases hk' with rfl | rfl
      · exact ⟨num.nwalkers, n1, rfl, i1⟩
      · exact ⟨num.nensembles, n2, rfl, i2⟩
  obtain ⟨t, e1, e2⟩ := complete_full (w := { w with clock := w.clock + 1, files := _ }) (ev := .mcmc w.clock) (vars := mcmcVars pre num) h0 hc hk hs (plain_mcmc hp hn) hvars hfiles
  have := e1.symm.trans h2
  cases this
  exact e2

theorem savedValue_ns {pre : Text} {kwargs : List (Text × Text)} {k : Text} (h : ∀ o ∈ kwargs, lower o.1 ≠ k) : savedValue (nsVars pre kwargs) k = savedValue (nsVars pre []) k := by
  unfold savedValue nsVars
  rw [List.reverse_append, List.find?_append, List.append_nil]
  have : kwargs.reverse.find? (fun o => lower o.1 = k) = none := by
    rw [List.find?_eq_none]
    intro x hx
    simpa using h x (List.mem_reverse.1 hx)
  rw [this]
  rfl

theorem ns_full {pre : Text} (hp : PlainPrefix pre) {kwargs : List (Text × Text)} (hn : ∀ o ∈ kwargs, PlainOption (lower o.1) ∧ PlainValue o.2)
    (hi : ∀ o ∈ kwargs, lower o.1 ∉ ["run".toList, "postfile".toList, "chainfile".toList]) (o : Oracle) {w w' : World} {u : Unit} (hw : Full pre w) (h : nsCmd pre kwargs o w = (.ok u, w')) : Full pre w' := by
  obtain ⟨cfg, h0, hc, hk, hs, hf⟩ := hw
  obtain ⟨_, _, h⟩ := load_then h
  replace h := work_then h
  replace h := work_then h
  replace h := newRun_then h
  replace h := write_then h
  replace h := write_then h
  replace h := work_then h
  replace h := write_then h
  have hfiles : FullF pre (Dict.set (Dict.set (Dict.set w.files (pathOf pre "_post_summary_ns.csv") .other) (pathOf pre "_post_obj_ns.pkl") (.post ⟨.ns, w.clock⟩ none)) (pathOf pre "_chains_ns.csv.bz2")
      (.chains ⟨.ns, w.clock⟩)) (.ns w.clock :: w.log) := by
    refine ⟨?_, ?_, ?_, ?_⟩
    · intro s hs'
      simp only [get?_path]
      exact hf.post s hs'
    · intro s hs'
      simp only [get?_path]
      exact hf.chains s hs'
    · intro s hs'
      cases hs'
      exact ⟨⟨none, by simp only [get?_path]; rfl⟩, by simp only [get?_path]; rfl⟩
    · intro s hs'
      simp only [get?_path]
      exact hf.derive s hs'
  have hne : ∀ k ∈ ["run".toList, "postfile".toList, "chainfile".toList], ∀ o ∈ kwargs, lower o.1 ≠ k := by
    rintro k hk' x hx rfl
    exact hi x hx hk'
  have hvars : VarsFor pre (nsVars pre kwargs) (.ns w.clock) := by
    refine ⟨?_, ?_, ?_⟩
    · rw [savedValue_ns (hne _ (by simp))]; rfl
    · rw [savedValue_ns (hne _ (by simp))]; rfl
    · rw [savedValue_ns (hne _ (by simp))]; rfl
  obtain ⟨t, e1, e2⟩ := complete_full (w := { w with clock := w.clock + 1, files := _ }) (ev := .ns w.clock) (vars := nsVars pre kwargs) h0 hc hk hs (plain_ns hp hn) hvars hfiles
  have := e1.symm.trans h
  cases this
  exact e2

theorem lastMcmc_some {log : List Event} (h : ∃ n, Event.mcmc n ∈ log) : ∃ s, lastMcmc log = some s := by
  induction log with
  | nil => simp at h
  | cons ev log ih =>
    cases ev <;> first | exact ⟨_, rfl⟩ | (simp at h; exact ih h)

theorem lastNs_some {log : List Event} (h : ∃ n, Event.ns n ∈ log) : ∃ s, lastNs log = some s := by
  induction log with
  | nil => simp at h
  | cons ev log ih =>
    cases ev <;> first | exact ⟨_, rfl⟩ | (simp at h; exact ih h)

theorem lastDerive_some {log : List Event} (h : Derived log) : ∃ s, lastDerive log = some s := by
  unfold Derived at h
  induction log with
  | nil => simp at h
  | cons ev log ih =>
    cases ev <;> first | exact ⟨_, rfl⟩ | (simp at h; exact ih h)

theorem lastFitOrMcmc_some {log : List Event} (h : Fitted log ∨ ∃ n, Event.mcmc n ∈ log) : ∃ s, lastFitOrMcmc log = some s := by
  unfold Fitted at h
  induction log with
  | nil => simp at h
  | cons ev log ih =>
    cases ev <;> first | exact ⟨_, rfl⟩ | (simp at h; exact ih h)

theorem getOption_value {c : Config} {s k v : Text} (h : c.value s k = some v) (hl : lower k = k) : getOption c s k = .ok v := by
  unfold Config.value at h
  unfold getOption
  rcases hd : c.get? s with _ | d
  · rw [hd] at h; cases h
  · rw [hd] at h
    simp only [Option.bind_some] at h
    simp only [hl, h]

theorem getOption_some {c : Config} {s k : Text} (h : (c.value s k).isSome = true) (hl : lower k = k) : ∃ v, getOption c s k = .ok v := by
  obtain ⟨v, hv⟩ := Option.isSome_iff_exists.1 h
  exact ⟨v, getOption_value hv hl⟩

theorem getBoolean_value {c : Config} {s : Text} (h : c.value s "run".toList = some trueText) : getBoolean c s "run".toList = .ok true := by
  unfold getBoolean
  rw [getOption_value h (by decide)]
  rfl

theorem ran_value {c : Config} {s : Text} (h : c.value s "run".toList = some trueText) : Ran c s := by
  unfold Config.value at h
  rcases hd : c.get? s with _ | d
  · rw [hd] at h; cases h
  · rw [hd] at h
    exact ⟨d, trueText, hd, h, by decide⟩

/-- What the samplers' entries in the status lead to. -/
theorem full_sampler {pre : Text} {log : List Event} {c : Config} (hf : FullS pre c log) {s : Text} (hs : Sampled s log) :
    Ran c s ∧ ((s = "mcmc".toList ∧ getOption c s "chainfile".toList = .ok (pathOf pre "_chains.csv.bz2") ∧ getOption c s "postfile".toList = .ok (pathOf pre "_post_obj.pkl")) ∨
      (s = "ns".toList ∧ getOption c s "chainfile".toList = .ok (pathOf pre "_chains_ns.csv.bz2") ∧ getOption c s "postfile".toList = .ok (pathOf pre "_post_obj_ns.pkl"))) := by
  rcases hs with ⟨rfl, h⟩ | ⟨rfl, h⟩
  · obtain ⟨h1, h2, h3, _⟩ := hf.mcmc h
    exact ⟨ran_value h1, .inl ⟨rfl, getOption_value h3 (by decide), getOption_value h2 (by decide)⟩⟩
  · obtain ⟨h1, h2, h3⟩ := hf.ns h
    exact ⟨ran_value h1, .inr ⟨rfl, getOption_value h3 (by decide), getOption_value h2 (by decide)⟩⟩

/-- Rewriting a posterior with its own origin keeps the invariant of the files. -/
theorem fullF_post {pre : Text} {files : Dict Text Content} {log : List Event} (hf : FullF pre files log) {a : String} (ha : a = "_post_obj.pkl" ∨ a = "_post_obj_ns.pkl") {s : Source} {d : Option Source}
    (hp : files.get? (pathOf pre a) = some (.post s d)) (d' : Option Source) : FullF pre (Dict.set files (pathOf pre a) (.post s d')) log := by
  rcases ha with rfl | rfl
  · refine ⟨?_, ?_, ?_, ?_⟩
    · intro x hx
      obtain ⟨d1, h1⟩ := hf.post x hx
      rw [hp] at h1
      cases h1
      exact ⟨d', Dict.get?_set_self _ _ _⟩
    · intro x hx; simp only [get?_path]; exact hf.chains x hx
    · intro x hx; simp only [get?_path]; exact hf.ns x hx
    · intro x hx; simp only [get?_path]; exact hf.derive x hx
  · refine ⟨?_, ?_, ?_, ?_⟩
    · intro x hx; simp only [get?_path]; exact hf.post x hx
    · intro x hx; simp only [get?_path]; exact hf.chains x hx
    · intro x hx
      obtain ⟨⟨d1, h1⟩, h2⟩ := hf.ns x hx
      rw [hp] at h1
      cases h1
      refine ⟨⟨d', Dict.get?_set_self _ _ _⟩, ?_⟩
      simp only [get?_path]
      exact h2
    · intro x hx; simp only [get?_path]; exact hf.derive x hx

theorem fullF_derived {pre : Text} {files : Dict Text Content} {log : List Event} (hf : FullF pre files log) (s : Source) :
    FullF pre (Dict.set files (pathOf pre "_derived.csv.bz2") (.derivedChains s)) (.derive s :: log) := by
  refine ⟨?_, ?_, ?_, ?_⟩
  · intro x hx; simp only [get?_path]; exact hf.post x hx
  · intro x hx; simp only [get?_path]; exact hf.chains x hx
  · intro x hx; simp only [get?_path]; exact hf.ns x hx
  · intro x hx
    cases hx
    exact Dict.get?_set_self _ _ _

theorem derive_full {pre : Text} (hp : PlainPrefix pre) (request : Text) (stellar : Bool) (o : Oracle) {w w' : World} {u : Option Used} (hw : Full pre w)
    (h : deriveCmd pre request stellar o w = (.ok u, w')) : Full pre w' := by
  have hw' := hw
  obtain ⟨cfg, h0, hc, hk, hs, hf⟩ := hw
  unfold deriveCmd at h
  obtain ⟨c, h1, h⟩ := load_then h
  rw [h0] at h1
  cases h1
  obtain ⟨s, h1, h⟩ := lift_then h
  replace h := work_then h
  obtain ⟨ppath, h2, h⟩ := lift_then h
  obtain ⟨post, h3, h⟩ := still_then (still_readPost _) h
  obtain ⟨cpath, h4, h⟩ := lift_then h
  obtain ⟨chains, h5, h⟩ := still_then (still_readChains _) h
  split_ifs at h with hst
  · cases h
    exact hw'
  · replace h := work_then h
    replace h := write_then h
    replace h := write_then h
    replace h := work_then h
    replace h := write_then h
    obtain ⟨_, w2, h6, h⟩ := bind_ok h
    cases h
    have hpath : ∃ a, (a = "_post_obj.pkl" ∨ a = "_post_obj_ns.pkl") ∧ ppath = pathOf pre a := by
      rcases (full_sampler hs (sampled_of hk h1)).2 with ⟨_, _, h⟩ | ⟨_, _, h⟩
      · rw [h2] at h; cases h; exact ⟨_, .inl rfl, rfl⟩
      · rw [h2] at h; cases h; exact ⟨_, .inr rfl, rfl⟩
    obtain ⟨a, ha, rfl⟩ := hpath
    have f1 := fullF_other hf "_derived_quantiles.csv" .other (by decide)
    have f2 := fullF_post (a := a) (s := post.1) (d := post.2) f1 ha (by
      rcases ha with rfl | rfl
      · rw [get?_path, if_neg (by decide)]; exact readPost_ok h3
      · rw [get?_path, if_neg (by decide)]; exact readPost_ok h3) (some chains)
    have f3 := fullF_derived f2 chains
    obtain ⟨t, e1, e2⟩ := complete_full (w := { w with files := Dict.set (Dict.set (Dict.set w.files (pathOf pre "_derived_quantiles.csv") .other) (pathOf pre a) (.post post.1 (some chains))) (pathOf pre "_derived.csv.bz2") (.derivedChains chains) }) (ev := .derive chains) h0 hc hk hs (plain_derive hp) ⟨rfl, rfl⟩ f3
    have := e1.symm.trans h6
    cases this
    exact e2

theorem void_ok {α : Type} {m : Run α} {w w' : World} {u : Unit} (h : void m w = (.ok u, w')) : ∃ a, m w = (.ok a, w') := by
  obtain ⟨a, w1, h1, h2⟩ := bind_ok h
  cases h2
  exact ⟨a, h1⟩

theorem full_step {pre : Text} (hp : PlainPrefix pre) {w w' : World} (hw : Full pre w) {c : Command} {o : Oracle} (h1 : c.Plain) (h2 : c.Clean) (h : runCommand pre o c w = (.ok (), w')) : Full pre w' := by
  have fs : ∀ {α : Type} (m : Run α) (a : α), FullSteady pre m → m w = (.ok a, w') → Full pre w' := by
    intro α m a hm h
    have := hm w hw
    rw [h] at this
    exact this
  cases c with
  | fit => exact fit_full hp o hw h
  | mcmc num => obtain ⟨a, h⟩ := void_ok h; exact mcmc_full hp h1 h2 o hw h
  | ns kwargs => exact ns_full hp h1 h2 o hw h
  | ic text => obtain ⟨a, h⟩ := void_ok h; exact fs _ _ (fs_ic h1 o) h
  | plots types request => exact fs _ _ (fs_plots hp types request o) h
  | tables types request => obtain ⟨a, h⟩ := void_ok h; exact fs _ _ (fs_tables hp types request o) h
  | derive request stellar => obtain ⟨a, h⟩ := void_ok h; exact derive_full hp request stellar o hw h
  | report request => obtain ⟨a, h⟩ := void_ok h; exact fs _ _ (fs_still (still_report request o)) h

theorem full_of_completed {pre : Text} (hp : PlainPrefix pre) {w : World} (h : Completed pre w) : Full pre w := by
  induction h with
  | start files clock =>
    exact ⟨[], rfl, ⟨by simp [Dict.keys], by simp, by simp, by simp⟩, by simp [Dict.keys], ⟨by simp, by simp [Fitted], by simp, by simp, by simp [Derived], by simp⟩,
      ⟨by simp [lastFitOrMcmc], by simp [lastMcmc], by simp [lastNs], by simp [lastDerive]⟩⟩
  | step w w' c o _ h1 h2 h ih => exact full_step hp ih h1 h2 h

end Radvel
