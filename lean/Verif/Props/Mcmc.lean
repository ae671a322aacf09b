import Verif.Lemmas.McmcTotal

/-!
# Property theorems C61, C62, C66, C95, C96 and C97: stopping, number of steps, and what a run returns
-/

namespace Radvel
open Classical

/-- The states in which `mcmc` enters its main loop: a new run, or a continued one. -/
def IsStart (cfg : McConfig) (st : McState) : Prop :=
  (∃ p0 file prev, p0.length = cfg.ensembles ∧ st = startFresh p0 cfg.nwalkers file prev) ∨ (∃ f file prev, startProceed cfg f file prev = .ok st)

theorem mapM_eq_ok_length {α β : Type} (f : α → Except PyErr β) : ∀ (l : List α) (out : List β), l.mapM f = .ok out → out.length = l.length := by
  intro l
  induction l with
  | nil => intro out h; cases h; rfl
  | cons a l ih =>
    intro out h
    rw [List.mapM_cons] at h
    rcases ha : f a with e | b
    · rw [ha] at h; cases h
    · rw [ha] at h
      rcases hl : l.mapM f with e | bs
      · rw [hl] at h; cases h
      · rw [hl] at h
        cases h
        simp [ih bs hl]

/-- What `startProceed` has read when it succeeds. -/
theorem startProceed_spec {cfg : McConfig} {f : H5} {file : Option H5} {prev : Option (List Ens × List (List (List Fl)))} {st : McState} (h : startProceed cfg f file prev = .ok st) :
    ∃ burned autosamples automin automean automax pre c0 crit, f.burned = some burned ∧ f.crit = some crit ∧ f.autosample = some autosamples ∧ f.automin = some automin ∧ f.automean = some automean ∧
      f.automax = some automax ∧ (List.range ((f.numKeys - 6) / 3)).mapM (loadOne f) = .ok pre ∧ f.chain.get 0 = .ok c0 ∧
      f.numKeys = 3 * cfg.ensembles + 6 ∧ ((c0.headD []).headD []).length = cfg.ndim ∧ (c0.headD []).length = cfg.nwalkers ∧
      st = { startFresh (pre.map fun s => s.chain.getLastD []) cfg.nwalkers file prev with
        samplers := pre, burnComplete := decide (burned ≠ 0), nburn := burned, ncomplete := burned, minafactor := crit.1, maxarchange := crit.2.1
        autosamples := autosamples, automin := automin, automean := automean, automax := automax } := by
  unfold startProceed at h
  rcases h1 : f.burned with _ | burned
  · rw [h1] at h; cases h
  rcases h2 : f.crit with _ | crit
  · rw [h1, h2] at h; cases h
  rcases h3 : f.autosample with _ | autosamples
  · rw [h1, h2, h3] at h; cases h
  rcases h4 : f.automin with _ | automin
  · rw [h1, h2, h3, h4] at h; cases h
  rcases h5 : f.automean with _ | automean
  · rw [h1, h2, h3, h4, h5] at h; cases h
  rcases h6 : f.automax with _ | automax
  · rw [h1, h2, h3, h4, h5, h6] at h; cases h
  rw [h1, h2, h3, h4, h5, h6] at h
  simp only [H5.need, bind, Except.bind] at h
  rcases h7 : (List.range ((f.numKeys - 6) / 3)).mapM (loadOne f) with e | pre
  · rw [h7] at h; cases h
  rw [h7] at h
  simp only at h
  split at h
  · cases h
  rename_i hk
  push Not at hk
  rcases h8 : f.chain.get 0 with e | c0
  · rw [h8] at h; cases h
  rw [h8] at h
  simp only at h
  split at h
  · cases h
  · rename_i hn
    push Not at hn
    cases h
    exact ⟨burned, autosamples, automin, automean, automax, pre, c0, crit, rfl, rfl, rfl, rfl, rfl, rfl, rfl, rfl, hk, hn.1, hn.2, rfl⟩

theorem IsStart.facts {cfg : McConfig} {st : McState} (h : IsStart cfg st) : st.trace = [] ∧ st.mixcount = 0 ∧ st.oac = none ∧ st.samplers.length = cfg.ensembles ∧
    (∀ s ∈ st.samplers, s.count = 0) ∧ st.started = false := by
  rcases h with ⟨p0, file, prev, h1, rfl⟩ | ⟨f, file, prev, h1⟩
  · refine ⟨rfl, rfl, rfl, by simp [startFresh, h1], ?_, rfl⟩
    intro s hs
    obtain ⟨_, _, rfl⟩ := List.mem_map.1 hs
    rfl
  · obtain ⟨burned, autosamples, automin, automean, automax, pre, c0, crit, _, _, _, _, _, _, h7, _, h9, _, _, rfl⟩ := startProceed_spec h1
    have hl := mapM_eq_ok_length _ _ _ h7
    rw [List.length_range, h9] at hl
    refine ⟨rfl, rfl, rfl, by simp only; omega, ?_, rfl⟩
    intro s hs
    have hmem : ∀ (l : List Nat) (out : List Sampler), l.mapM (loadOne f) = .ok out → ∀ s ∈ out, s.count = 0 := by
      intro l
      induction l with
      | nil => intro out h; cases h; simp
      | cons a l ih =>
        intro out h
        rw [List.mapM_cons] at h
        rcases ha : loadOne f a with e | b
        · rw [ha] at h; cases h
        · rw [ha] at h
          rcases hl : l.mapM (loadOne f) with e | bs
          · rw [hl] at h; cases h
          · rw [hl] at h
            cases h
            intro s hs
            rcases List.mem_cons.1 hs with rfl | hs
            · unfold loadOne at ha
              rcases g1 : f.chain.get a with e | x
              · rw [g1] at ha; cases ha
              rcases g2 : f.logProb.get a with e | y
              · rw [g1, g2] at ha; cases ha
              rcases g3 : f.accepted.get a with e | z
              · rw [g1, g2, g3] at ha; cases ha
              rw [g1, g2, g3] at ha
              cases ha
              rfl
            · exact ih bs hl s hs
    exact hmem _ _ h7 s hs

/-! ## C61 and C66 -/

/-- The rounds in which the statistics were computed. -/
def computedChecks (st : McState) : List Check := st.trace.filter Check.computed

/-- The bookkeeping of `mixcount` and of the autocorrelation times. -/
structure StopInv (cfg : McConfig) (st : McState) : Prop where
  count : ∃ pre, ∃ tl : List Check, computedChecks st = pre ++ tl ∧ tl.length = st.mixcount ∧ ∀ c ∈ tl, c.passed = true
  first : (computedChecks st = [] ∧ st.oac = none) ∨ ∃ c rest, computedChecks st = c :: rest ∧ c.passed = false
  burned : cfg.th.maxGR.leq cfg.burnGR → ∀ c ∈ st.trace, c.passed = true → st.burnComplete = true
  order : cfg.th.maxGR.leq cfg.burnGR → st.trace.Pairwise fun a b => a.passed = true → b.post = true

theorem StopInv.round {itime : List Ens → List Fl} {moves : Nat → Nat → Pos → Move} {cfg : McConfig} {st st' : McState} (hI : StopInv cfg st)
    (h : mcmcRound itime moves cfg st = .ok st') : StopInv cfg st' := by
  obtain ⟨stc, hc, rfl⟩ := mcmcRound_spec h
  obtain ⟨fr, _, _, _, _, hcase⟩ := convergenceCheck_spec hc
  obtain ⟨b1, b2, b3, _, _, _, _, b8, b9⟩ := burnStep_fields cfg { stc with file := stc.file.map (saveAll stc 0 stc.samplers) }
  have hbc : stc.burnComplete = st.burnComplete := fr.burnComplete
  rcases hcase with ⟨c1, c2, c3⟩ | ⟨out, maxgr, c1, c2, c3, c4, c5, c6⟩
  · have c1' : stc.mixcount = st.mixcount := c1
    have c2' : stc.oac = st.oac := c2
    have c3' : stc.trace = st.trace ++ [⟨false, false, st.burnComplete⟩] := c3
    have hcc : computedChecks (burnStep cfg { stc with file := stc.file.map (saveAll stc 0 stc.samplers) }) = computedChecks st := by
      unfold computedChecks
      rw [b2]
      show stc.trace.filter _ = _
      rw [c3', List.filter_append]
      simp
    refine ⟨?_, ?_, ?_, ?_⟩
    · rw [hcc, b1]; show ∃ pre tl, _ ∧ _ = stc.mixcount ∧ _; rw [c1']; exact hI.count
    · rw [hcc, b3]; show _ ∧ stc.oac = none ∨ _; rw [c2']; exact hI.first
    · intro hle c hcm hp
      rw [b2] at hcm
      have hcm' : c ∈ stc.trace := hcm
      rw [c3', List.mem_append, List.mem_singleton] at hcm'
      apply b8
      show stc.burnComplete = true
      rw [hbc]
      rcases hcm' with hcm' | rfl
      · exact hI.burned hle c hcm' hp
      · cases hp
    · intro hle
      rw [b2]
      show List.Pairwise _ stc.trace
      rw [c3', List.pairwise_append]
      refine ⟨hI.order hle, by simp, ?_⟩
      intro a ha b hb hp
      rw [List.mem_singleton] at hb
      subst hb
      exact hI.burned hle a ha hp
  · have c5' : stc.mixcount = if out.ismixed then st.mixcount + 1 else 0 := c5
    have c6' : stc.trace = st.trace ++ [⟨true, out.ismixed, st.burnComplete⟩] := c6
    have hcc : computedChecks (burnStep cfg { stc with file := stc.file.map (saveAll stc 0 stc.samplers) }) = computedChecks st ++ [⟨true, out.ismixed, st.burnComplete⟩] := by
      unfold computedChecks
      rw [b2]
      show stc.trace.filter _ = _
      rw [c6', List.filter_append]
      simp
    refine ⟨?_, ?_, ?_, ?_⟩
    · rw [hcc, b1]
      show ∃ pre tl, _ ∧ _ = stc.mixcount ∧ _
      rw [c5']
      obtain ⟨pre, tl, h1, h2, h3⟩ := hI.count
      by_cases hm : out.ismixed = true
      · refine ⟨pre, tl ++ [⟨true, out.ismixed, st.burnComplete⟩], by rw [h1]; simp, by simp [h2, hm], ?_⟩
        intro c hcm
        rw [List.mem_append, List.mem_singleton] at hcm
        rcases hcm with hcm | rfl
        · exact h3 c hcm
        · exact hm
      · refine ⟨computedChecks st ++ [⟨true, out.ismixed, st.burnComplete⟩], [], by simp, by simp [hm], by simp⟩
    · right
      rw [hcc]
      rcases hI.first with ⟨h1, h2⟩ | ⟨c, rest, h1, h2⟩
      · rw [h1]
        refine ⟨_, [], rfl, ?_⟩
        have c1' : convergenceCalculate itime _ st.oac cfg.th = .ok out := c1
        rw [h2] at c1'
        exact C66_first itime _ cfg.th out c1'
      · rw [h1]
        exact ⟨c, rest ++ [⟨true, out.ismixed, st.burnComplete⟩], rfl, h2⟩
    · intro hle c hcm hp
      rw [b2] at hcm
      have hcm' : c ∈ stc.trace := hcm
      rw [c6', List.mem_append, List.mem_singleton] at hcm'
      rcases hcm' with hcm' | rfl
      · apply b8
        show stc.burnComplete = true
        rw [hbc]
        exact hI.burned hle c hcm' hp
      · apply b9
        show stc.maxgr.leq cfg.burnGR
        have hgr : maxgr.lt cfg.th.maxGR := by
          obtain ⟨_, _, a, b, c, d, _, hb, _, _, h5⟩ := conv_raw c1
          rw [c2] at hb
          cases hb
          exact (h5 hp).1
        rw [show stc.maxgr = maxgr from c3]
        exact Fl.lt_leq hgr hle
    · intro hle
      rw [b2]
      show List.Pairwise _ stc.trace
      rw [c6', List.pairwise_append]
      refine ⟨hI.order hle, by simp, ?_⟩
      intro a ha b hb hp
      rw [List.mem_singleton] at hb
      subst hb
      exact hI.burned hle a ha hp

theorem StopInv.start {cfg : McConfig} {st : McState} (h : IsStart cfg st) : StopInv cfg st := by
  obtain ⟨h1, h2, h3, _, _, _⟩ := h.facts
  refine ⟨⟨[], [], by simp [computedChecks, h1], by simp [h2], by simp⟩, .inl ⟨by simp [computedChecks, h1], h3⟩, ?_, ?_⟩
  · intro _ c hc; rw [h1] at hc; simp at hc
  · intro _; rw [h1]; exact List.Pairwise.nil

theorem stopInv_run {itime : List Ens → List Fl} {moves : Nat → Nat → Pos → Move} {cfg : McConfig} {st0 st : McState} {f : ChainFrame} {b : Bool} (h0 : IsStart cfg st0)
    (h : mcmcRun itime moves cfg st0 = .ok (f, st, b)) : StopInv cfg st := by
  obtain ⟨n, _, hl, _⟩ := mcmcRun_spec h
  exact mcmcLoop_invariant (StopInv cfg) (fun st st' hI hr => hI.round hr) n st0 st b (.start h0) hl

/-- C61 (missing: that both checks were made on post-burn-in samples, which is false, `C61_violated`): when `mcmc` stops early, the two most recent computed checks were passed; and, if
`maxGR ≤ burnGR`, the last one was made on samples taken after burn-in. -/
theorem C61_partial (itime : List Ens → List Fl) (moves : Nat → Nat → Pos → Move) (cfg : McConfig) (st0 st : McState) (f : ChainFrame) (h0 : IsStart cfg st0)
    (h : mcmcRun itime moves cfg st0 = .ok (f, st, true)) :
    ∃ pre a b, computedChecks st = pre ++ [a, b] ∧ a.passed = true ∧ b.passed = true ∧ (cfg.th.maxGR.leq cfg.burnGR → b.post = true) := by
  obtain ⟨n, _, hl, _⟩ := mcmcRun_spec h
  have hI := stopInv_run h0 h
  have hm := mcmcLoop_break n st0 st hl
  obtain ⟨pre, tl, h1, h2, h3⟩ := hI.count
  rcases htl : tl.reverse with _ | ⟨b, _ | ⟨a, r⟩⟩
  · have := congrArg List.length htl; simp at this; simp [this] at h2; omega
  · have := congrArg List.length htl; simp at this; omega
  · have htl' : tl = r.reverse ++ [a, b] := by rw [← List.reverse_reverse tl, htl]; simp
    refine ⟨pre ++ r.reverse, a, b, by rw [h1, htl']; simp, h3 a (by rw [htl']; simp), h3 b (by rw [htl']; simp), ?_⟩
    intro hle
    have hpw : (computedChecks st).Pairwise fun a b => a.passed = true → b.post = true := (hI.order hle).filter _
    rw [h1, htl', ← List.append_assoc, List.pairwise_append] at hpw
    have := hpw.2.1
    simp only [List.pairwise_cons, List.mem_singleton, forall_eq] at this
    exact this.1 (h3 a (by rw [htl']; simp))

/-- C66: the first computed check of a run fails, and a run that stops early has made at least three computed checks. -/
theorem C66_three (itime : List Ens → List Fl) (moves : Nat → Nat → Pos → Move) (cfg : McConfig) (st0 st : McState) (f : ChainFrame) (early : Bool) (h0 : IsStart cfg st0)
    (h : mcmcRun itime moves cfg st0 = .ok (f, st, early)) :
    (∀ c, (computedChecks st).head? = some c → c.passed = false) ∧ (early = true → 3 ≤ (computedChecks st).length) := by
  have hI := stopInv_run h0 h
  have hfirst : ∀ c, (computedChecks st).head? = some c → c.passed = false := by
    intro c hc
    rcases hI.first with ⟨h1, _⟩ | ⟨c', rest, h1, h2⟩
    · rw [h1] at hc; cases hc
    · rw [h1] at hc; cases hc; exact h2
  refine ⟨hfirst, ?_⟩
  intro he
  subst he
  obtain ⟨pre, a, b, h1, h2, _, _⟩ := C61_partial itime moves cfg st0 st f h0 h
  cases pre with
  | nil =>
    have := hfirst a (by rw [h1]; rfl)
    rw [h2] at this; cases this
  | cons x pre => rw [h1]; simp

/-! ## C62 -/

/-- Every sampler has made `checkinterval` moves per round. -/
structure StepInv (cfg : McConfig) (st : McState) : Prop where
  count : ∀ s ∈ st.samplers, s.count = st.trace.length * cfg.checkinterval
  len : st.samplers.length = cfg.ensembles

theorem StepInv.round {itime : List Ens → List Fl} {moves : Nat → Nat → Pos → Move} {cfg : McConfig} (hci : 1 ≤ cfg.checkinterval) {st st' : McState} (hI : StepInv cfg st)
    (h : mcmcRound itime moves cfg st = .ok st') : StepInv cfg st' ∧ st'.trace.length = st.trace.length + 1 := by
  obtain ⟨stc, hc, rfl⟩ := mcmcRound_spec h
  obtain ⟨fr, _, _, _, _, hcase⟩ := convergenceCheck_spec hc
  obtain ⟨_, b2, _⟩ := burnStep_fields cfg { stc with file := stc.file.map (saveAll stc 0 stc.samplers) }
  have htr : stc.trace.length = st.trace.length + 1 := by
    rcases hcase with ⟨_, _, c3⟩ | ⟨_, _, _, _, _, _, _, c6⟩
    · rw [c3]; simp [afterBlocks]
    · rw [c6]; simp [afterBlocks]
  have hss : stc.samplers = blocks cfg.checkinterval moves st.started 0 st.samplers st.inits := fr.samplers
  have hcnt : ∀ s ∈ stc.samplers, s.count = stc.trace.length * cfg.checkinterval := by
    intro s hs
    rw [hss] at hs
    obtain ⟨s0, hs0, j, b, init, rfl⟩ := blocks_mem _ _ _ _ _ _ s hs
    rw [(block_length _ hci _ _ _ _).2.2, hI.count s0 hs0, htr]
    ring
  have hlen : stc.samplers.length = cfg.ensembles := by rw [hss, blocks_length, hI.len]
  refine ⟨⟨?_, ?_⟩, by rw [b2]; exact htr⟩
  · intro s hs
    rw [b2]
    rcases burnStep_samplers cfg { stc with file := stc.file.map (saveAll stc 0 stc.samplers) } with h1 | h1
    · rw [h1] at hs; exact hcnt s hs
    · rw [h1] at hs
      obtain ⟨s', hs', rfl⟩ := List.mem_map.1 hs
      exact hcnt s' hs'
  · rcases burnStep_samplers cfg { stc with file := stc.file.map (saveAll stc 0 stc.samplers) } with h1 | h1
    · rw [h1]; exact hlen
    · rw [h1]; simpa using hlen

theorem stepInv_loop {itime : List Ens → List Fl} {moves : Nat → Nat → Pos → Move} {cfg : McConfig} (hci : 1 ≤ cfg.checkinterval) :
    ∀ (n : Nat) (st st' : McState) (b : Bool), StepInv cfg st → mcmcLoop itime moves cfg n st = .ok (st', b) →
      StepInv cfg st' ∧ st'.trace.length ≤ st.trace.length + n ∧ (b = false → st'.trace.length = st.trace.length + n) := by
  intro n
  induction n with
  | zero => intro st st' b hI h; cases h; exact ⟨hI, le_rfl, fun _ => rfl⟩
  | succ n ih =>
    intro st st' b hI h
    unfold mcmcLoop at h
    rcases hr : mcmcRound itime moves cfg st with e | st1
    · rw [hr] at h; cases h
    · rw [hr] at h
      simp only at h
      obtain ⟨h1, h2⟩ := hI.round hci hr
      split at h
      · cases h; exact ⟨h1, by omega, fun h => by cases h⟩
      · obtain ⟨h3, h4, h5⟩ := ih st1 st' b h1 h
        exact ⟨h3, by omega, fun hb => by have := h5 hb; omega⟩

theorem StepInv.start {cfg : McConfig} {st : McState} (h : IsStart cfg st) : StepInv cfg st := by
  obtain ⟨h1, _, _, h4, h5, _⟩ := h.facts
  exact ⟨by intro s hs; rw [h1, h5 s hs]; simp, h4⟩

/-- C62, how many steps are made: `checkinterval` per round by every ensemble, with at most `round(nrun / (checkinterval - 1))` rounds, and exactly that many unless the run stops early.
(The property's bounds, `nrun` from above and `checkinterval` from below, are both false: see the next two theorems.) -/
theorem C62_steps_partial (itime : List Ens → List Fl) (moves : Nat → Nat → Pos → Move) (cfg : McConfig) (hci : 2 ≤ cfg.checkinterval) (st0 st : McState) (f : ChainFrame) (early : Bool)
    (h0 : IsStart cfg st0) (h : mcmcRun itime moves cfg st0 = .ok (f, st, early)) :
    ∃ rounds : Nat, (∀ s ∈ st.samplers, s.count = rounds * cfg.checkinterval) ∧ (rounds : ℤ) ≤ roundEven ((cfg.nrun : ℝ) / ((cfg.checkinterval : ℝ) - 1)) ∧
      (early = false → (rounds : ℤ) = roundEven ((cfg.nrun : ℝ) / ((cfg.checkinterval : ℝ) - 1))) := by
  obtain ⟨n, hn, hl, _⟩ := mcmcRun_spec h
  unfold numRun at hn
  rw [if_neg (by omega)] at hn
  cases hn
  obtain ⟨h1, h2, h3⟩ := stepInv_loop (by omega) _ _ _ _ (.start h0) hl
  rw [h0.facts.1] at h2 h3
  simp only [List.length_nil, zero_add] at h2 h3
  have hnn : 0 ≤ roundEven ((cfg.nrun : ℝ) / ((cfg.checkinterval : ℝ) - 1)) := by
    have hx : 0 ≤ (cfg.nrun : ℝ) / ((cfg.checkinterval : ℝ) - 1) := by
      have : (2 : ℝ) ≤ cfg.checkinterval := by exact_mod_cast hci
      exact div_nonneg (Nat.cast_nonneg _) (by linarith)
    have hf := Int.floor_nonneg.2 hx
    unfold roundEven
    split
    · exact hf
    · split
      · omega
      · split <;> omega
  refine ⟨st.trace.length, h1.count, by omega, fun he => by have := h3 he; omega⟩

theorem roundEven_int (z : ℤ) : roundEven (z : ℝ) = z := by
  unfold roundEven
  rw [Int.fract_intCast, if_pos (by norm_num), Int.floor_intCast]

/-- C62, upper bound false: whenever `nrun` is a positive multiple `k` of `checkinterval - 1` and the run does not stop early, every walker makes `nrun + k` steps. -/
theorem C62_most_violated (itime : List Ens → List Fl) (moves : Nat → Nat → Pos → Move) (cfg : McConfig) (hci : 2 ≤ cfg.checkinterval) (k : Nat) (hk : 1 ≤ k)
    (hrun : cfg.nrun = k * (cfg.checkinterval - 1)) (st0 st : McState) (f : ChainFrame) (h0 : IsStart cfg st0) (h : mcmcRun itime moves cfg st0 = .ok (f, st, false)) :
    ∀ s ∈ st.samplers, s.count = cfg.nrun + k ∧ cfg.nrun < s.count := by
  obtain ⟨rounds, h1, _, h3⟩ := C62_steps_partial itime moves cfg hci st0 st f false h0 h
  have hr := h3 rfl
  have hq : (cfg.nrun : ℝ) / ((cfg.checkinterval : ℝ) - 1) = ((k : ℤ) : ℝ) := by
    have h2 : (2 : ℝ) ≤ cfg.checkinterval := by exact_mod_cast hci
    rw [hrun, div_eq_iff (by linarith)]
    push_cast [Nat.cast_sub (show 1 ≤ cfg.checkinterval by omega)]
    ring
  rw [hq, roundEven_int] at hr
  have hr' : rounds = k := by exact_mod_cast hr
  subst hr'
  intro s hs
  have hs1 := h1 s hs
  obtain ⟨c, hc⟩ : ∃ c, cfg.checkinterval = c + 1 := ⟨cfg.checkinterval - 1, by omega⟩
  have : s.count = cfg.nrun + rounds := by
    rw [hs1, hrun, hc]; simp; ring
  exact ⟨this, by omega⟩

/-- C62, lower bound false: if `2·nrun < checkinterval - 1`, no step is made at all; a first run then fails with `AttributeError`. -/
theorem C62_least_violated (itime : List Ens → List Fl) (moves : Nat → Nat → Pos → Move) (cfg : McConfig) (hsmall : 2 * cfg.nrun + 1 < cfg.checkinterval) (p0 : List Pos) (file : Option H5) :
    mcmcRun itime moves cfg (startFresh p0 cfg.nwalkers file none) = .error .attributeError := by
  have hn : numRun cfg.nrun cfg.checkinterval = .ok 0 := by
    unfold numRun
    rw [if_neg (by omega)]
    have h2 : (2 * cfg.nrun + 2 : ℝ) ≤ cfg.checkinterval := by exact_mod_cast hsmall
    have hd : (0 : ℝ) < (cfg.checkinterval : ℝ) - 1 := by
      have : (0 : ℝ) ≤ cfg.nrun := Nat.cast_nonneg _
      linarith
    have hx0 : 0 ≤ (cfg.nrun : ℝ) / ((cfg.checkinterval : ℝ) - 1) := div_nonneg (Nat.cast_nonneg _) hd.le
    have hx1 : (cfg.nrun : ℝ) / ((cfg.checkinterval : ℝ) - 1) < 1 / 2 := by
      rw [div_lt_iff₀ hd]; linarith
    have hfl : ⌊(cfg.nrun : ℝ) / ((cfg.checkinterval : ℝ) - 1)⌋ = 0 := by
      rw [Int.floor_eq_iff]; constructor
      · simpa using hx0
      · push_cast; linarith
    unfold roundEven
    have hfr : Int.fract ((cfg.nrun : ℝ) / ((cfg.checkinterval : ℝ) - 1)) < 1 / 2 := by
      unfold Int.fract; rw [hfl]; simpa using hx1
    rw [if_pos hfr, hfl]
    rfl
  unfold mcmcRun
  rw [hn]
  rfl

/-! ## C97: runs complete -/

/-- With enough steps for half a block, there is at least one round. -/
theorem numRun_pos {nrun ci : Nat} (hci : 2 ≤ ci) (hrun : ci ≤ 2 * nrun) : ∃ n, numRun nrun ci = .ok (n + 1) := by
  unfold numRun
  rw [if_neg (by omega)]
  have hx : 1 / 2 < (nrun : ℝ) / ((ci : ℝ) - 1) := by
    have h2 : (2 : ℝ) ≤ ci := by exact_mod_cast hci
    have h5 : (ci : ℝ) ≤ 2 * nrun := by exact_mod_cast hrun
    rw [lt_div_iff₀ (by linarith)]; linarith
  have hpos : 1 ≤ roundEven ((nrun : ℝ) / ((ci : ℝ) - 1)) := by
    generalize (nrun : ℝ) / ((ci : ℝ) - 1) = x at hx
    have hf : 0 ≤ ⌊x⌋ := Int.floor_nonneg.2 (by linarith)
    have hxf : x = ⌊x⌋ + Int.fract x := (Int.floor_add_fract x).symm
    unfold roundEven
    split
    · rename_i hfr
      by_contra hlt
      have : ⌊x⌋ = 0 := by omega
      rw [this] at hxf
      push_cast at hxf
      linarith
    · split
      · omega
      · split
        · rename_i h6 h7 h8
          by_contra hlt
          have : ⌊x⌋ = 0 := by omega
          rw [this] at hxf
          push_cast at hxf
          linarith
        · omega
  refine ⟨(roundEven ((nrun : ℝ) / ((ci : ℝ) - 1))).toNat - 1, ?_⟩
  congr 1
  omega

/-- C97: with at least one free parameter, walker and ensemble, a check interval of at least 2, thinning at least 1 and enough steps for one round, a run returns a table, whatever the sampler's
moves and whatever (non-empty) autocorrelation times emcee reports. -/
theorem C97_completes (itime : List Ens → List Fl) (hi : ∀ chains, itime chains ≠ []) (moves : Nat → Nat → Pos → Move) (cfg : McConfig) (hnd : 0 < cfg.ndim) (hnw : 0 < cfg.nwalkers)
    (hrun : cfg.checkinterval ≤ 2 * cfg.nrun) (hens : 0 < cfg.ensembles) (hci : 2 ≤ cfg.checkinterval) (hthin : 0 < cfg.thin) (st0 : McState) (h0 : IsStart cfg st0) :
    ∃ f st early, mcmcRun itime moves cfg st0 = .ok (f, st, early) := by
  obtain ⟨h1, _, h3, h4, _, _⟩ := h0.facts
  have hg : Going st0 := ⟨by intro h; rw [h] at h4; simp at h4; omega, by intro l hl; rw [h3] at hl; cases hl⟩
  obtain ⟨n, hn⟩ := numRun_pos hci hrun
  obtain ⟨st, b, hl⟩ := mcmcLoop_total itime moves cfg hnd hnw (by omega) hens hci hi (n + 1) st0 hg
  -- the table of the last check is there and has the right number of columns
  have htab : ∀ (st st' : McState), mcmcRound itime moves cfg st = .ok st' →
      ∃ chains ln, st'.table = some (chains, ln) ∧ (chains.headD []).length = cfg.ndim := by
    intro st st' hr
    obtain ⟨stc, hc, rfl⟩ := mcmcRound_spec hr
    obtain ⟨_, ht, _, hne, _, _⟩ := convergenceCheck_spec hc
    rw [(burnStep_fields cfg _).2.2.2.1]
    refine ⟨_, _, ht, ?_⟩
    cases hss : (afterBlocks cfg moves st).samplers with
    | nil => exact absurd hss hne
    | cons s ss => simp [(chainT_rect cfg.ndim cfg.nwalkers s).1]
  have htab' : ∃ chains ln, st.table = some (chains, ln) ∧ (chains.headD []).length = cfg.ndim := by
    unfold mcmcLoop at hl
    rcases hr : mcmcRound itime moves cfg st0 with e | st1
    · rw [hr] at hl; cases hl
    · rw [hr] at hl
      simp only at hl
      split at hl
      · cases hl; exact htab _ _ hr
      · exact mcmcLoop_invariant (fun st => ∃ chains ln, st.table = some (chains, ln) ∧ (chains.headD []).length = cfg.ndim) (fun a b _ hab => htab a b hab) n st1 st b (htab _ _ hr) hl
  obtain ⟨chains, ln, ht, hcl⟩ := htab'
  have hf : ∃ f, finish cfg st = .ok f := by
    unfold finish
    rw [ht]
    simp only
    rw [if_neg (by simp [buildFrame] at *; omega), if_neg (by omega)]
    exact ⟨_, rfl⟩
  obtain ⟨f, hf⟩ := hf
  refine ⟨f, st, b, ?_⟩
  unfold mcmcRun
  rw [hn]
  simp only [bind, Except.bind]
  rw [hl]
  simp only
  rw [hf]
  rfl

/-- A small configuration. -/
noncomputable def smallConfig : McConfig where
  ndim := 1
  nwalkers := 2
  nrun := 10
  ensembles := 2
  checkinterval := 2
  th := ⟨.fin 2, .fin (3 / 100), .fin (-2), .fin (101 / 100)⟩
  burnAfactor := .fin 25
  burnGR := .fin (103 / 100)
  minsteps := 0
  minpercent := 0
  thin := 1

/-- Moves that ignore the position: ensemble 0 always has its walkers at -1 and 1; ensemble 1 at 1 and 3, then at -3 and -1, then at -1 and 1. -/
def smallMoves (i n : Nat) (_ : Pos) : Move :=
  ⟨if i = 0 then [[-1], [1]] else if n < 2 then [[1], [3]] else if n < 4 then [[-3], [-1]] else [[-1], [1]], [.fin 0, .fin 0], [true, true]⟩

/-- The start of the small run. -/
def smallStart : McState := startFresh [[[0], [0]], [[0], [0]]] 2 none none

theorem smallStart_isStart : IsStart smallConfig smallStart := .inl ⟨[[[0], [0]], [[0], [0]]], none, none, rfl, rfl⟩

/-- Non-vacuity of `C61_partial`'s and `C66_three`'s start, of `C62_steps_partial` and of `C97_completes`. -/
example : ∃ f st early, mcmcRun (fun _ => [.fin 1]) smallMoves smallConfig smallStart = .ok (f, st, early) :=
  C97_completes _ (by simp) _ _ (by decide) (by decide) (by decide) (by decide) (by decide) (by decide) _ smallStart_isStart

end Radvel
