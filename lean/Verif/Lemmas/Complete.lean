import Verif.Props.Provenance

/-! Helper lemmas for commands that succeed. -/

namespace Radvel

/-- What a table command needs of the world while it writes tables. -/
def Writable (pre : Text) (log : List Event) (w : World) : Prop := FullF pre w.files log ∧ ∃ c, loadStatus w.stat = .ok c ∧ PlainConfig c

theorem work_none {o : Oracle} (ho : ∀ k, o k = none) (k : Work) (w : World) : work o k w = (.ok (), w) := by
  unfold work
  rw [ho]

theorem lift_run {α : Type} {x : Except PyErr α} {a : α} (h : x = .ok a) (w : World) : lift x w = (.ok a, w) := by rw [h]; rfl

theorem complete_writable {pre : Text} {log : List Event} {w : World} (hw : Writable pre log w) {sec : Text} {vars : List (Text × Text)} (hx : Save.Plain ⟨sec, vars⟩) (ev : Event) :
    ∃ w', complete sec vars ev w = (.ok (), w') ∧ Writable pre log w' ∧ w'.log = ev :: w.log := by
  obtain ⟨hf, c, h0, hc⟩ := hw
  obtain ⟨t, h1, h2, h3⟩ := save_plain h0 hc hx
  refine ⟨{ w with stat := some t, log := ev :: w.log }, ?_, ⟨hf, _, h2, h3⟩, rfl⟩
  unfold complete
  rw [h1]

theorem write_writable {pre : Text} {log : List Event} {w : World} (hw : Writable pre log w) (a : String) (c : Content) (ha : ∀ k ∈ kept, a.toList ≠ k.toList) :
    Writable pre log { w with files := Dict.set w.files (pathOf pre a) c } := ⟨fullF_other hw.1 a c ha, hw.2⟩

theorem chains_full {pre : Text} {w : World} {c : Config} {log : List Event} (hs : FullS pre c log) (hf : FullF pre w.files log) {s : Text} (h : Sampled s log) :
    ∃ path ch, getOption c s "chainfile".toList = .ok path ∧ readChains path w = (.ok ch, w) := by
  rcases (full_sampler hs h).2 with ⟨rfl, h1, _⟩ | ⟨rfl, h1, _⟩
  · have hm : ∃ n, Event.mcmc n ∈ log := by
      rcases h with ⟨_, h⟩ | ⟨h, _⟩
      · exact h
      · exact absurd h (by decide)
    obtain ⟨ch, hch⟩ := lastMcmc_some hm
    exact ⟨_, ch, h1, by unfold readChains; rw [(hf.chains ch hch).1]⟩
  · have hm : ∃ n, Event.ns n ∈ log := by
      rcases h with ⟨h, _⟩ | ⟨_, h⟩
      · exact absurd h (by decide)
      · exact h
    obtain ⟨ch, hch⟩ := lastNs_some hm
    exact ⟨_, ch, h1, by unfold readChains; rw [(hf.ns ch hch).2]⟩

theorem plotChains_full {pre : Text} {w : World} {c : Config} {log : List Event} (hk : ∀ s ∈ c.keys, ∃ ev ∈ log, ev.section_ = s) (hs : FullS pre c log) (hf : FullF pre w.files log) {request s : Text} (h : Chosen log request s)
    {t : PlotType} (ht : t = .corner ∨ s = "mcmc".toList) : ∃ ch, plotChains c request t w = (.ok ch, w) := by
  obtain ⟨path, ch, h1, h2⟩ := chains_full hs hf h.1
  refine ⟨ch, ?_⟩
  have hcheck : checkSampler c s t w = (.ok (), w) := by
    unfold checkSampler
    split_ifs with htc
    · have hrun : getBoolean c s "run".toList = .ok true := by
        rcases h.1 with ⟨rfl, hm⟩ | ⟨rfl, hm⟩
        · exact getBoolean_value (hs.mcmc hm).1
        · exact getBoolean_value (hs.ns hm).1
      rw [bind_of_ok (lift_run hrun w)]
      rfl
    · rcases ht with ht | rfl
      · exact absurd ht htc
      · have hm : ∃ n, Event.mcmc n ∈ log := by
          rcases h.1 with ⟨_, h⟩ | ⟨h, _⟩
          · exact h
          · exact absurd h (by decide)
        obtain ⟨ch', hch⟩ := lastMcmc_some hm
        rw [bind_of_ok (show assertR _ w = (.ok (), w) by rfl), bind_of_ok (lift_run (getOption_value (hs.mcmc hm).2.2.2.1 (by decide)) w)]
        unfold void
        rw [bind_of_ok (show readAutocorr _ w = (.ok ch', w) by unfold readAutocorr; rw [(hf.chains ch' hch).2])]
        rfl
  unfold plotChains
  rw [bind_of_ok (lift_run (pick_chosen hk hs h) w), bind_of_ok hcheck, bind_of_ok (lift_run h1 w), h2]

theorem plotInputs_full {pre : Text} {w : World} {c : Config} {log : List Event} (hk : ∀ s ∈ c.keys, ∃ ev ∈ log, ev.section_ = s) (hs : FullS pre c log) (hf : FullF pre w.files log) {request : Text} {d : Option Source} {t : PlotType}
    (h : PlotOk log request t) : plotInputs c request d t w = (.ok (), w) := by
  cases t with
  | rv =>
    show plotMasses c d w = _
    unfold plotMasses
    split_ifs with hm
    · unfold showsMasses hasOption at hm
      have hd : Derived log := by
        rcases hg : c.get? "derive".toList with _ | x
        · rw [hg] at hm; simp at hm
        · exact (has_derive hk hs).1 ((Dict.has_iff _ _).2 (Dict.mem_keys_of_get? _ hg))
      obtain ⟨s, hl⟩ := lastDerive_some hd
      rw [bind_of_ok (lift_run (getOption_value (hs.derive hd).2 (by decide)) w)]
      unfold void
      rw [bind_of_ok (show readDerived _ w = (.ok s, w) by unfold readDerived; rw [hf.derive s hl])]
      rfl
    · rfl
  | auto =>
    obtain ⟨ch, h1⟩ := plotChains_full (t := .auto) hk hs hf h (.inr rfl)
    show void _ w = _
    unfold void
    rw [bind_of_ok h1]
    rfl
  | corner =>
    obtain ⟨s, h⟩ := h
    obtain ⟨ch, h1⟩ := plotChains_full (t := .corner) hk hs hf h (.inl rfl)
    show void _ w = _
    unfold void
    rw [bind_of_ok h1]
    rfl
  | trend =>
    obtain ⟨ch, h1⟩ := plotChains_full (t := .trend) hk hs hf h (.inr rfl)
    have hm : ∃ n, Event.mcmc n ∈ log := by
      rcases h.1 with ⟨_, h⟩ | ⟨h, _⟩
      · exact h
      · exact absurd h (by decide)
    obtain ⟨_, _, _, _, _, h6⟩ := hs.mcmc hm
    have hint : ∀ k ∈ ["nwalkers".toList, "nensembles".toList], lower k = k → ∃ n, getInt c "mcmc".toList k = .ok n := by
      intro k hk' hl
      obtain ⟨v, n, h7, h8⟩ := h6 k hk'
      refine ⟨n, ?_⟩
      unfold getInt
      rw [getOption_value h7 hl]
      simp only [(pyInt_iff _ _).2 h8]
    obtain ⟨n1, i1⟩ := hint "nwalkers".toList (by simp) (by decide)
    obtain ⟨n2, i2⟩ := hint "nensembles".toList (by simp) (by decide)
    show (plotChains c request .trend >>= fun _ => trendNumbers c) w = _
    rw [bind_of_ok h1]
    unfold trendNumbers void
    rw [bind_of_ok (lift_run i1 w), bind_of_ok (lift_run i2 w)]
    rfl
  | derived =>
    obtain ⟨s, hl⟩ := lastDerive_some h
    show plotDerived c w = _
    unfold plotDerived
    rw [(has_derive hk hs).2 h, bind_of_ok (show assertR true w = (.ok (), w) by rfl), bind_of_ok (lift_run (getOption_value (hs.derive h).2 (by decide)) w)]
    unfold void
    rw [bind_of_ok (show readDerived _ w = (.ok s, w) by unfold readDerived; rw [hf.derive s hl])]
    rfl

theorem plotLoop_full {pre : Text} (hp : PlainPrefix pre) {c : Config} {log : List Event} (hk : ∀ s ∈ c.keys, ∃ ev ∈ log, ev.section_ = s) (hs : FullS pre c log) {request : Text} {post : Source × Option Source} {o : Oracle} (ho : ∀ k, o k = none)
    {ts : List PlotType} (ht : ∀ t ∈ ts, PlotOk log request t) {w : World} (hw : Writable pre log w) :
    ∃ w', plotLoop pre c request post o ts w = (.ok (), w') ∧ w'.log = (ts.map Event.plot).reverse ++ w.log := by
  induction ts generalizing w with
  | nil => exact ⟨w, rfl, by simp⟩
  | cons t ts ih =>
    have hw1 := write_writable hw (plotSuffix t) (plotContent c post t) (by cases t <;> decide)
    obtain ⟨w1, h1, h2, h3⟩ := complete_writable hw1 (plain_plot hp t) (.plot t)
    obtain ⟨w2, h4, h5⟩ := ih (fun t' ht' => ht t' (by simp [ht'])) h2
    refine ⟨w2, ?_, by rw [h5, h3]; simp⟩
    have hone : plotOne pre c request post o t w = (.ok (), w1) := by
      unfold plotOne
      rw [bind_of_ok (plotInputs_full hk hs hw.1 (ht t (by simp))), bind_of_ok (work_none ho _ _), bind_of_ok (show writeR _ _ w = (.ok (), _) from rfl)]
      exact h1
    unfold plotLoop
    rw [bind_of_ok hone, h4]

theorem hasOption_value {c : Config} {s k : Text} (h : (c.value s k).isSome = true) (hl : lower k = k) : hasOption c s k = true := by
  unfold Config.value at h
  unfold hasOption
  rcases hd : c.get? s with _ | d
  · rw [hd] at h; cases h
  · rw [hd] at h
    simp only [Option.bind_some] at h
    simp only [hl]
    rw [Dict.has_iff, ← Dict.get?_isSome_iff]
    exact h

theorem maxparams_full {log : List Event} {u : Used} (hu : Origin log u) (hs : Sampled u.sampler log) (h : u.sampler = "mcmc".toList → lastFitOrMcmc log = lastMcmc log) (w : World) : needMaxparams u w = (.ok (), w) := by
  have : u.post.stage ≠ .fit := by
    rcases hs with ⟨hm, _⟩ | ⟨hm, _⟩
    · obtain ⟨a, b⟩ := hu.1 hm
      rw [h hm] at b
      rw [(lastMcmc_mem b).2]
      decide
    · rw [(lastNs_mem (hu.2.1 hm).2).2]
      decide
  unfold needMaxparams
  rw [if_neg this]
  rfl

theorem maxparams_refit {log : List Event} {u : Used} (hu : Origin log u) (hm : u.sampler = "mcmc".toList) (h : lastFitOrMcmc log ≠ lastMcmc log) (w : World) : needMaxparams u w = (.error .attributeError, w) := by
  obtain ⟨a, b⟩ := hu.1 hm
  have : u.post.stage = .fit := by
    by_contra hne
    exact h (b.trans (lastFitOrMcmc_mcmc b hne).symm)
  unfold needMaxparams
  rw [if_pos this]
  rfl

theorem tableText_full {pre : Text} {c : Config} {log : List Event} (hs : FullS pre c log) {o : Oracle} (ho : ∀ k, o k = none) {u : Used} (hu : Origin log u) (hsam : Sampled u.sampler log) (flag : Bool) {t : TableType}
    (ht : TableOk log u.sampler t) (w : World) : ∃ x, tableText c o u flag t w = (.ok x, w) := by
  cases t with
  | params => exact ⟨(.other, flag), (bind_of_ok (maxparams_full hu hsam ht w)).trans (bind_of_ok (work_none ho _ _))⟩
  | priors => exact ⟨(.other, flag), bind_of_ok (work_none ho _ _)⟩
  | rv => exact ⟨(.other, flag), bind_of_ok (work_none ho _ _)⟩
  | icCompare =>
    have hr : assertR (hasOption c "ic_compare".toList "ic".toList) w = (.ok (), w) := by rw [hasOption_value (hs.ic ht) (by decide)]; rfl
    exact ⟨(.other, false), (bind_of_ok hr).trans (bind_of_ok (work_none ho _ _))⟩
  | derived =>
    have hr : assertR (hasOption c "derive".toList "run".toList) w = (.ok (), w) := by rw [hasOption_value (by rw [(hs.derive ht.1).1]; rfl) (by decide)]; rfl
    cases flag with
    | true => exact ⟨(.derivedTable u.derived, true), (bind_of_ok hr).trans ((bind_of_ok (maxparams_full hu hsam ht.2 w)).trans (bind_of_ok (work_none ho _ _)))⟩
    | false => exact ⟨(.derivedTable none, false), bind_of_ok hr⟩
  | crit => exact ⟨(.other, flag), bind_of_ok (work_none ho _ _)⟩

theorem tableLoop_full {pre : Text} (hp : PlainPrefix pre) {c : Config} {log : List Event} (hs : FullS pre c log) {o : Oracle} (ho : ∀ k, o k = none) {u : Used} (hu : Origin log u) (hsam : Sampled u.sampler log)
    {ts : List TableType} (ht : ∀ t ∈ ts, TableOk log u.sampler t) (flag : Bool) {w : World} (hw : Writable pre log w) :
    ∃ w', tableLoop_ pre c o u flag ts w = (.ok (), w') ∧ w'.log = (ts.map Event.table).reverse ++ w.log := by
  induction ts generalizing w flag with
  | nil => exact ⟨w, rfl, by simp⟩
  | cons t ts ih =>
    obtain ⟨x, hx⟩ := tableText_full hs ho hu hsam flag (ht t (by simp)) w
    have hw1 := write_writable hw (tableSuffix t) x.1 (by cases t <;> decide)
    obtain ⟨w1, h1, h2, h3⟩ := complete_writable hw1 (plain_table hp t) (.table t)
    obtain ⟨w2, h4, h5⟩ := ih (fun t' ht' => ht t' (by simp [ht'])) x.2 h2
    refine ⟨w2, ?_, by rw [h5, h3]; simp⟩
    unfold tableLoop_
    rw [bind_of_ok hx, bind_of_ok (show writeR _ _ w = (.ok (), _) from rfl), bind_of_ok h1, h4]

end Radvel
