import Verif.Lemmas.Provenance

/-! What the posterior file carries as its attribute `derived`. -/

namespace Radvel

/-- The attribute `derived` of the posterior file is the last derivation from MCMC samples since the last fit. -/
def Carried (pre : Text) (w : World) : Prop := Fitted w.log → ∀ s d, w.files.get? (pathOf pre "_post_obj.pkl") = some (.post s d) → d = massesSinceFit w.log

/-- A step that touches neither the posterior file nor the events that matter. -/
def CarrySteady {α : Type} (pre : Text) (m : Run α) : Prop :=
  ∀ w, (m w).2.files.get? (pathOf pre "_post_obj.pkl") = w.files.get? (pathOf pre "_post_obj.pkl") ∧ massesSinceFit (m w).2.log = massesSinceFit w.log ∧ (Fitted (m w).2.log → Fitted w.log)

theorem cs_bind {α β : Type} {pre : Text} {m : Run α} {f : α → Run β} (hm : CarrySteady pre m) (hf : ∀ a, CarrySteady pre (f a)) : CarrySteady pre (m >>= f) := by
  intro w
  rw [run_bind]
  have h1 := hm w
  rcases h : m w with ⟨r, w1⟩
  rw [h] at h1
  rcases r with e | a
  · exact h1
  · obtain ⟨a1, a2, a3⟩ := hf a w1
    obtain ⟨b1, b2, b3⟩ := h1
    exact ⟨a1.trans b1, a2.trans b2, fun h => b3 (a3 h)⟩

theorem cs_still {α : Type} {pre : Text} {m : Run α} (h : Still m) : CarrySteady pre m := fun w => by rw [h w]; exact ⟨rfl, rfl, id⟩

theorem cs_write {pre : Text} (a : String) (c : Content) (ha : a.toList ≠ "_post_obj.pkl".toList) : CarrySteady pre (writeR (pathOf pre a) c) :=
  fun _ => ⟨Dict.get?_set_ne _ _ (pathOf_ne ha), rfl, id⟩

theorem cs_complete {pre : Text} {sec : Text} {vars : List (Text × Text)} {ev : Event} (hl : ∀ log, massesSinceFit (ev :: log) = massesSinceFit log) (hf : ∀ n, ev ≠ .fit n) : CarrySteady pre (complete sec vars ev) := by
  intro w
  unfold complete
  split
  · exact ⟨rfl, rfl, id⟩
  · refine ⟨rfl, hl _, ?_⟩
    rintro ⟨n, hn⟩
    rcases List.mem_cons.1 hn with h | h
    · exact absurd h.symm (hf n)
    · exact ⟨n, h⟩

theorem cs_newRun {pre : Text} : CarrySteady pre newRun := fun _ => ⟨rfl, rfl, id⟩

theorem cs_plotLoop {pre : Text} (c : Config) (request : Text) (post : Source × Option Source) (o : Oracle) (ts : List PlotType) : CarrySteady pre (plotLoop pre c request post o ts) := by
  induction ts with
  | nil => exact cs_still (still_pure _)
  | cons t ts ih =>
    refine cs_bind ?_ fun _ => ih
    refine cs_bind (cs_still (still_plotInputs _ _ _ _)) fun _ => cs_bind (cs_still (still_work _ _)) fun _ => cs_bind (cs_write _ _ ?_) fun _ => ?_
    · cases t <;> decide
    · exact cs_complete (fun _ => rfl) (fun _ h => by cases h)

theorem cs_plots {pre : Text} (types : List PlotType) (request : Text) (o : Oracle) : CarrySteady pre (plotsCmd pre types request o) :=
  cs_bind (cs_still still_load) fun _ => cs_bind (cs_still (still_work _ _)) fun _ => cs_bind (cs_still (still_lift _)) fun _ => cs_bind (cs_still (still_assert _)) fun _ => cs_bind (cs_still (still_lift _)) fun _ =>
    cs_bind (cs_still (still_readPost _)) fun _ => cs_plotLoop _ _ _ _ _

theorem cs_tableLoop {pre : Text} (c : Config) (o : Oracle) (u : Used) (flag : Bool) (ts : List TableType) : CarrySteady pre (tableLoop_ pre c o u flag ts) := by
  induction ts generalizing flag with
  | nil => exact cs_still (still_pure _)
  | cons t ts ih =>
    refine cs_bind (cs_still (still_tableText _ _ _ _ _)) fun _ => cs_bind (cs_write _ _ ?_) fun _ => cs_bind ?_ fun _ => ih _
    · cases t <;> decide
    · exact cs_complete (fun _ => rfl) (fun _ h => by cases h)

theorem cs_tables {pre : Text} (types : List TableType) (request : Text) (o : Oracle) : CarrySteady pre (tablesCmd pre types request o) :=
  cs_bind (cs_still still_load) fun _ => cs_bind (cs_still (still_work _ _)) fun _ => cs_bind (cs_still (still_lift _)) fun _ => cs_bind (cs_still (still_criteria _ _)) fun _ =>
    cs_bind (cs_still (still_results _ _)) fun _ => cs_bind (cs_tableLoop _ _ _ _ _) fun _ => cs_still (still_pure _)

theorem cs_ic {pre : Text} (text : Text) (o : Oracle) : CarrySteady pre (icCmd text o) :=
  cs_bind (cs_still still_load) fun _ => cs_bind (cs_still (still_work _ _)) fun _ => cs_bind (cs_still (still_lift _)) fun _ => cs_bind (cs_still (still_assert _)) fun _ => cs_bind (cs_still (still_lift _)) fun _ =>
    cs_bind (cs_still (still_readPost _)) fun _ => cs_bind (cs_still (still_work _ _)) fun _ =>
      cs_bind (cs_complete (fun _ => rfl) (fun _ h => by cases h)) fun _ => cs_still (still_pure _)

theorem cs_ns {pre : Text} (kwargs : List (Text × Text)) (o : Oracle) : CarrySteady pre (nsCmd pre kwargs o) :=
  cs_bind (cs_still still_load) fun _ => cs_bind (cs_still (still_work _ _)) fun _ => cs_bind (cs_still (still_work _ _)) fun _ => cs_bind cs_newRun fun _ => cs_bind (cs_write _ _ (by decide)) fun _ =>
    cs_bind (cs_write _ _ (by decide)) fun _ => cs_bind (cs_still (still_work _ _)) fun _ => cs_bind (cs_write _ _ (by decide)) fun _ => cs_complete (fun _ => rfl) (fun _ h => by cases h)

theorem carried_steady {α : Type} {pre : Text} {m : Run α} (hm : CarrySteady pre m) {w w' : World} {r : Except PyErr α} (hw : Carried pre w) (h : m w = (r, w')) : Carried pre w' := by
  obtain ⟨h1, h2, h3⟩ := hm w
  rw [h] at h1 h2 h3
  intro hf s d hd
  rw [h2]
  rw [h1] at hd
  exact hw (h3 hf) s d hd

theorem complete_world {sec : Text} {vars : List (Text × Text)} {ev : Event} {w w' : World} {u : Unit} (h : complete sec vars ev w = (.ok u, w')) : w'.files = w.files ∧ w'.log = ev :: w.log := by
  unfold complete at h
  split at h
  · cases h
  · cases h
    exact ⟨rfl, rfl⟩

theorem carried_fit {pre : Text} {o : Oracle} {w w' : World} {u : Unit} (h : fitCmd pre o w = (.ok u, w')) : Carried pre w' := by
  replace h := work_then h
  replace h := work_then h
  replace h := newRun_then h
  replace h := work_then h
  replace h := write_then h
  obtain ⟨h1, h2⟩ := complete_world h
  intro _ s d hd
  rw [h1, Dict.get?_set_self] at hd
  cases hd
  rw [h2]
  rfl

/-- MCMC saves the posterior that it loaded, which is there after a fit. -/
theorem mcmc_post {pre : Text} {num : McmcNumbers} {o : Oracle} {w w' : World} {u : Option Source} (hw : Full pre w) (h : mcmcCmd pre num o w = (.ok u, w')) :
    Fitted w.log ∧ ∃ s d, w.files.get? (pathOf pre "_post_obj.pkl") = some (.post s d) ∧ w'.files.get? (pathOf pre "_post_obj.pkl") = some (.post ⟨.mcmc, w.clock⟩ d) := by
  obtain ⟨cfg, h0, hc, hk, hs, hf⟩ := hw
  obtain ⟨c, h1, h⟩ := load_then h
  rw [h0] at h1
  cases h1
  obtain ⟨b, hb, h⟩ := lift_then (work_then h)
  have hfit : Fitted w.log := by
    have hm : "fit".toList ∈ cfg.keys := by
      unfold getBoolean getOption at hb
      rcases hg : cfg.get? "fit".toList with _ | x
      · simp only [hg] at hb
        cases hb
      · exact Dict.mem_keys_of_get? _ hg
    obtain ⟨ev, he, hsec⟩ := hk _ hm
    exact fitted_of ⟨ev, he, hsec⟩
  have hb' := getBoolean_value (hs.fit hfit).1
  rw [hb] at hb'
  cases hb'
  obtain ⟨st, hst, h⟩ := still_then (m := startFrom _ true) (by
    unfold startFrom
    exact still_ite _ (still_bind (still_lift _) fun _ => still_bind (still_readPost _) fun _ => still_pure _) (still_pure _)) h
  have hst' : ∃ p, st = some p ∧ w.files.get? (pathOf pre "_post_obj.pkl") = some (.post p.1 p.2) := by
    unfold startFrom at hst
    rw [if_pos rfl] at hst
    obtain ⟨path, hp, hst⟩ := lift_then hst
    obtain ⟨p, hr, hst⟩ := still_then (still_readPost _) hst
    cases hst
    rw [getOption_value (hs.fit hfit).2 (by decide)] at hp
    cases hp
    exact ⟨p, rfl, readPost_ok hr⟩
  obtain ⟨p, rfl, hpost⟩ := hst'
  replace h := work_then h
  replace h := newRun_then h
  replace h := write_then h
  replace h := write_then h
  replace h := work_then h
  replace h := write_then h
  replace h := write_then h
  obtain ⟨_, w2, h2, h⟩ := bind_ok h
  cases h
  refine ⟨hfit, p.1, p.2, hpost, ?_⟩
  rw [(complete_world h2).1]
  simp only [get?_path]
  rfl

theorem carried_mcmc {pre : Text} {num : McmcNumbers} {o : Oracle} {w w' : World} {u : Option Source} (hw : Full pre w) (hcar : Carried pre w) (h : mcmcCmd pre num o w = (.ok u, w')) : Carried pre w' := by
  obtain ⟨hfit, s, d, h1, h2⟩ := mcmc_post hw h
  intro _ s' d' hd
  rw [h2] at hd
  cases hd
  rw [(mcmc_log h).1]
  exact hcar hfit s d h1

theorem lastNs_stage {log : List Event} {s : Source} (h : lastNs log = some s) : s.stage = .ns := by
  induction log with
  | nil => cases h
  | cons ev log ih => cases ev <;> first | exact ih h | (cases h; rfl)

/-- Deriving parameters writes them to the posterior of the sampler. -/
theorem carried_derive {pre : Text} {request : Text} {stellar : Bool} {o : Oracle} {w w' : World} {u : Option Used} (hw : Full pre w) (hcar : Carried pre w)
    (h : deriveCmd pre request stellar o w = (.ok u, w')) : Carried pre w' := by
  obtain ⟨cfg, h0, hc, hk, hs, hf⟩ := hw
  unfold deriveCmd at h
  obtain ⟨c, h1, h⟩ := load_then h
  rw [h0] at h1
  cases h1
  obtain ⟨s, h1, h⟩ := lift_then h
  replace h := work_then h
  obtain ⟨ppath, h2, h⟩ := lift_then h
  obtain ⟨post, h3, h⟩ := still_then (still_readPost _) h
  obtain ⟨cpath, h4, h⟩ := lift_then h
  obtain ⟨chains, h5, h⟩ := still_then (still_readChains _) h
  split_ifs at h with hst
  · cases h
    exact hcar
  · replace h := work_then h
    replace h := write_then h
    replace h := write_then h
    replace h := work_then h
    replace h := write_then h
    obtain ⟨_, w2, h6, h⟩ := bind_ok h
    cases h
    obtain ⟨e1, e2⟩ := complete_world h6
    have hsam := sampled_of hk h1
    intro hfit s' d' hd
    rw [e1] at hd
    rw [e2] at hfit ⊢
    have hfit' : Fitted w.log := by
      obtain ⟨n, hn⟩ := hfit
      rcases List.mem_cons.1 hn with h | h
      · cases h
      · exact ⟨n, h⟩
    rcases (full_sampler hs hsam).2 with ⟨hm, hcp, hpp⟩ | ⟨hm, hcp, hpp⟩
    · rw [h2] at hpp
      cases hpp
      rw [h4] at hcp
      cases hcp
      have hmc : ∃ n, Event.mcmc n ∈ w.log := by
        rcases hsam with ⟨_, h⟩ | ⟨h', _⟩
        · exact h
        · rw [hm] at h'; exact absurd h' (by decide)
      obtain ⟨ch, hch⟩ := lastMcmc_some hmc
      have h6 := readChains_ok h5
      rw [(hf.chains ch hch).1] at h6
      cases h6
      simp only [get?_path] at hd
      have hd' : (some (Content.post post.1 (some chains))) = some (.post s' d') := hd
      cases hd'
      show _ = massesSinceFit (.derive chains :: w.log)
      rw [massesSinceFit, if_pos (lastMcmc_mem hch).2]
    · rw [h2] at hpp
      cases hpp
      rw [h4] at hcp
      cases hcp
      have hns : ∃ n, Event.ns n ∈ w.log := by
        rcases hsam with ⟨h', _⟩ | ⟨_, h⟩
        · rw [hm] at h'; exact absurd h' (by decide)
        · exact h
      obtain ⟨ch, hch⟩ := lastNs_some hns
      have h6 := readChains_ok h5
      rw [(hf.ns ch hch).2] at h6
      cases h6
      simp only [get?_path] at hd
      have hd' : w.files.get? (pathOf pre "_post_obj.pkl") = some (.post s' d') := hd
      show _ = massesSinceFit (.derive chains :: w.log)
      rw [massesSinceFit, if_neg (by rw [lastNs_stage hch]; decide)]
      exact hcar hfit' s' d' hd'

theorem carried_of_completed {pre : Text} (hp : PlainPrefix pre) {w : World} (h : Completed pre w) : Carried pre w := by
  induction h with
  | start files clock =>
    rintro ⟨n, hn⟩
    cases hn
  | step w w' c o hw h1 h2 h ih =>
    have hfull := full_of_completed hp hw
    cases c with
    | fit => exact carried_fit h
    | mcmc num => obtain ⟨a, h⟩ := void_ok h; exact carried_mcmc hfull ih h
    | ns kwargs => exact carried_steady (cs_ns kwargs o) ih h
    | ic text => obtain ⟨a, h⟩ := void_ok h; exact carried_steady (cs_ic text o) ih h
    | plots types request => exact carried_steady (cs_plots types request o) ih h
    | tables types request => obtain ⟨a, h⟩ := void_ok h; exact carried_steady (cs_tables types request o) ih h
    | derive request stellar => obtain ⟨a, h⟩ := void_ok h; exact carried_derive hfull ih h
    | report request => obtain ⟨a, h⟩ := void_ok h; exact carried_steady (cs_still (still_report request o)) ih h

theorem massesSinceFit_derived {log : List Event} {s : Source} (h : massesSinceFit log = some s) : Derived log := by
  induction log with
  | nil => cases h
  | cons ev log ih =>
    have tl : massesSinceFit log = some s → Derived (ev :: log) := fun h => by
      obtain ⟨x, hx⟩ := ih h
      exact ⟨x, by simp [hx]⟩
    cases ev with
    | fit n => cases h
    | derive x => exact ⟨x, by simp⟩
    | _ => exact tl h

/-- The RV figure that the loop over the plots leaves behind. -/
theorem plotLoop_rv {pre : Text} {c : Config} {request : Text} {post : Source × Option Source} {o : Oracle} {ts : List PlotType} {w w' : World} {u : Unit} (h : plotLoop pre c request post o ts w = (.ok u, w')) :
    w'.files.get? (pathOf pre "_rv_multipanel.pdf") = if .rv ∈ ts then some (plotContent c post .rv) else w.files.get? (pathOf pre "_rv_multipanel.pdf") := by
  induction ts generalizing w with
  | nil => cases h; simp
  | cons t ts ih =>
    obtain ⟨_, w1, h1, h⟩ := bind_ok h
    rw [ih h]
    obtain ⟨_, _, h1⟩ := still_then (still_plotInputs _ _ _ _) h1
    replace h1 := work_then h1
    replace h1 := write_then h1
    rw [(complete_world h1).1]
    by_cases hts : PlotType.rv ∈ ts
    · rw [if_pos hts, if_pos (by simp [hts])]
    · rw [if_neg hts]
      cases t with
      | rv => rw [if_pos (by simp)]; exact Dict.get?_set_self _ _ _
      | _ =>
        rw [if_neg (by simp [hts]), get?_path, if_neg (by decide)]

end Radvel
