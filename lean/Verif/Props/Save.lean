import Verif.Lemmas.ChainFile
import Verif.Props.Chain

/-! # C67: saving and proceeding -/

namespace Radvel
open Classical

/-- Moves return positions of the right shape. -/
def ShapedMoves (nd nw : Nat) (moves : Nat → Nat → Pos → Move) : Prop :=
  ∀ i n p, (moves i n p).pos.length = nw ∧ ∀ row ∈ (moves i n p).pos, row.length = nd

/-- The states a saving session can be in after at least one round of `mcmc` with `save=True`, possibly interrupted after any round: a new run saving to a new file, or a run that proceeds from (and saves
to) the file of an earlier one. Move functions, integrated times and thresholds may differ from run to run. -/
inductive Session : McConfig → McState → Prop where
  | fresh {itime moves cfg p0 prev n st b} : 0 < cfg.ensembles → 0 < cfg.nwalkers → 1 ≤ cfg.checkinterval → ShapedMoves cfg.ndim cfg.nwalkers moves → p0.length = cfg.ensembles →
      mcmcLoop itime moves cfg (n + 1) (startFresh p0 cfg.nwalkers (some H5.empty) prev) = .ok (st, b) → Session cfg st
  | proceed {cfg0 st0 F itime moves cfg prev st1 n st b} : Session cfg0 st0 → st0.file = some F → 1 ≤ cfg.checkinterval → ShapedMoves cfg.ndim cfg.nwalkers moves →
      startProceed cfg F (some F) prev = .ok st1 → mcmcLoop itime moves cfg (n + 1) st1 = .ok (st, b) → Session cfg st

/-- All stored positions have the right shape. -/
def Shaped (cfg : McConfig) (ss : List Sampler) : Prop := ∀ s ∈ ss, ∀ p ∈ s.chain, p.length = cfg.nwalkers ∧ ∀ row ∈ p, row.length = cfg.ndim

/-- What holds before each round. -/
structure ResumeInv (cfg : McConfig) (st : McState) : Prop where
  len : st.samplers.length = cfg.ensembles
  shape : Shaped cfg st.samplers
  burned : st.burnComplete = true ↔ st.nburn ≠ 0
  file : ∃ m f, m ≤ cfg.ensembles ∧ st.file = some f ∧ FileOf m f

/-- What holds after each round. -/
structure Resumable (cfg : McConfig) (st : McState) : Prop where
  saved : ∃ c F, st.file = some F ∧ Saved cfg cfg.ensembles st c F ∧ (st.burnComplete = c.post → st.samplers = st.checked) ∧ (c.post = true → st.burnComplete = true)
  len : st.checked.length = cfg.ensembles
  shape : Shaped cfg st.checked
  ne : ∀ s ∈ st.checked, s.chain ≠ []

theorem advance_shaped {nd nw : Nat} {mv : Nat → Pos → Move} (hm : ∀ n p, (mv n p).pos.length = nw ∧ ∀ row ∈ (mv n p).pos, row.length = nd) : ∀ (k : Nat) (s : Sampler) (p : Pos),
    (∀ q ∈ s.chain, q.length = nw ∧ ∀ row ∈ q, row.length = nd) → ∀ q ∈ (s.advance mv p k).chain, q.length = nw ∧ ∀ row ∈ q, row.length = nd := by
  intro k
  induction k with
  | zero => intro s p h; exact h
  | succ k ih =>
    intro s p h
    unfold Sampler.advance
    simp only
    apply ih
    intro q hq
    simp only [Sampler.store, List.mem_append, List.mem_singleton] at hq
    rcases hq with hq | rfl
    · exact h q hq
    · exact hm _ _

theorem ResumeInv.round {itime : List Ens → List Fl} {moves : Nat → Nat → Pos → Move} {cfg : McConfig} (hens : 0 < cfg.ensembles) (hnw : 0 < cfg.nwalkers) (hci : 1 ≤ cfg.checkinterval)
    (hm : ShapedMoves cfg.ndim cfg.nwalkers moves) {st st' : McState} (hI : ResumeInv cfg st) (h : mcmcRound itime moves cfg st = .ok st') : ResumeInv cfg st' ∧ Resumable cfg st' := by
  obtain ⟨m, f, hmle, hf1, hf2⟩ := hI.file
  obtain ⟨r1, c, F, r2, r3⟩ := round_saved hens hI.len hf1 hf2 h
  rw [max_eq_right hmle] at r3
  obtain ⟨stc, hc, rfl⟩ := mcmcRound_spec h
  obtain ⟨fr, _, hchk, hne, hnc, hcase⟩ := convergenceCheck_spec hc
  have hsm : stc.samplers = blocks cfg.checkinterval moves st.started 0 st.samplers st.inits := fr.samplers
  have hchk' : stc.checked = stc.samplers := by rw [hchk, fr.samplers]
  obtain ⟨_, b2, _, _, b5, b6, _⟩ := burnStep_fields cfg { stc with file := stc.file.map (saveAll stc 0 stc.samplers) }
  have hshape : Shaped cfg stc.samplers := by
    intro s hs
    rw [hsm] at hs
    obtain ⟨s0, hs0, j, b, init, rfl⟩ := blocks_mem _ _ _ _ _ _ _ hs
    exact advance_shaped (hm j) _ _ _ (advance_shaped (hm j) _ _ _ (hI.shape s0 hs0))
  have hlong : ∀ s ∈ stc.samplers, 1 ≤ s.chain.length := by
    intro s hs
    rw [hsm] at hs
    obtain ⟨s0, hs0, j, b, init, rfl⟩ := blocks_mem _ _ _ _ _ _ _ hs
    have := (block_length cfg.checkinterval hci (moves j) b s0 init).1
    omega
  have hpos : 0 < stc.ncomplete := by
    rw [hnc]
    have hmem : ∃ s, s ∈ stc.samplers := by
      rw [fr.samplers]; exact List.exists_mem_of_ne_nil _ hne
    obtain ⟨s, hs⟩ := hmem
    have h1 : s.chain.length * cfg.nwalkers ≤ ((afterBlocks cfg moves st).samplers.map fun s => s.chain.length * cfg.nwalkers).sum := by
      apply List.single_le_sum (by simp) _
      rw [← fr.samplers]
      exact List.mem_map.2 ⟨s, hs, rfl⟩
    have h2 : 1 ≤ s.chain.length * cfg.nwalkers := Nat.mul_pos (hlong s hs) hnw
    omega
  have hbc : stc.burnComplete = st.burnComplete := fr.burnComplete
  have hnb : stc.nburn = st.nburn := fr.nburn
  have hpost : c.post = st.burnComplete := by
    have := r3.last
    rw [b2] at this
    have h' : stc.trace.getLast? = some c := this
    rcases hcase with ⟨_, _, c3⟩ | ⟨_, _, _, _, _, _, _, c6⟩
    · rw [c3] at h'; simp at h'; rw [← h']; rfl
    · rw [c6] at h'; simp at h'; rw [← h']; rfl
  refine ⟨⟨r1, ?_, ?_, ⟨_, F, le_rfl, r2, r3.file⟩⟩, ⟨⟨c, F, r2, r3, ?_, ?_⟩, ?_, ?_, ?_⟩⟩
  · rcases burnStep_samplers cfg { stc with file := stc.file.map (saveAll stc 0 stc.samplers) } with h1 | h1
    · rw [h1]; exact hshape
    · rw [h1]
      intro s hs
      obtain ⟨s', _, rfl⟩ := List.mem_map.1 hs
      simp [Sampler.reset]
  · unfold burnStep
    split
    · exact ⟨fun _ => by show stc.ncomplete ≠ 0; omega, fun _ => rfl⟩
    · show stc.burnComplete = true ↔ stc.nburn ≠ 0
      rw [hbc, hnb]; exact hI.burned
  · rw [hpost, b5]
    unfold burnStep
    split
    · rename_i hb
      intro h0
      have hb1 : stc.burnComplete = false := hb.1
      rw [← hbc, hb1] at h0
      cases h0
    · intro _; exact hchk'.symm
  · intro hp
    unfold burnStep
    split
    · rfl
    · show stc.burnComplete = true
      rw [hbc, ← hpost]; exact hp
  · rw [b5]; show stc.checked.length = _; rw [hchk', hsm, blocks_length]; exact hI.len
  · rw [b5]; show Shaped cfg stc.checked; rw [hchk']; exact hshape
  · rw [b5]; show ∀ s ∈ stc.checked, _; rw [hchk']
    intro s hs h0
    have := hlong s hs
    rw [h0] at this; simp at this

theorem ResumeInv.loop {itime : List Ens → List Fl} {moves : Nat → Nat → Pos → Move} {cfg : McConfig} (hens : 0 < cfg.ensembles) (hnw : 0 < cfg.nwalkers) (hci : 1 ≤ cfg.checkinterval)
    (hm : ShapedMoves cfg.ndim cfg.nwalkers moves) : ∀ (n : Nat) {st st' : McState} {b : Bool}, ResumeInv cfg st → mcmcLoop itime moves cfg (n + 1) st = .ok (st', b) → ResumeInv cfg st' ∧ Resumable cfg st' := by
  intro n
  induction n with
  | zero =>
    intro st st' b hI h
    unfold mcmcLoop at h
    rcases hr : mcmcRound itime moves cfg st with e | st1
    · rw [hr] at h; cases h
    · rw [hr] at h
      simp only at h
      have := hI.round hens hnw hci hm hr
      split at h
      · cases h; exact this
      · unfold mcmcLoop at h; cases h; exact this
  | succ n ih =>
    intro st st' b hI h
    unfold mcmcLoop at h
    rcases hr : mcmcRound itime moves cfg st with e | st1
    · rw [hr] at h; cases h
    · rw [hr] at h
      simp only at h
      have h1 := hI.round hens hnw hci hm hr
      split at h
      · cases h; exact h1
      · exact ih h1.1 h

/-- The saved samplers as the driver reads them. -/
def Sampler.stored (s : Sampler) : List Pos × List (List Fl) × List Nat := (s.chain, s.logProb, s.accepted)

theorem Resumable.first {cfg : McConfig} {st : McState} (h : Resumable cfg st) {c : Check} {F : H5} (hs : Saved cfg cfg.ensembles st c F) (hens : 0 < cfg.ensembles) (hnw : 0 < cfg.nwalkers) :
    ∃ c0, F.chain.get 0 = .ok c0 ∧ ((c0.headD []).headD []).length = cfg.ndim ∧ (c0.headD []).length = cfg.nwalkers := by
  have h0 : 0 < st.checked.length := by rw [h.len]; exact hens
  have hg := List.getElem?_eq_getElem h0
  have hmem : st.checked[0] ∈ st.checked := List.getElem_mem h0
  refine ⟨st.checked[0].chain, by unfold Dict.get; rw [(hs.got 0 _ hg).1], ?_⟩
  rcases hcs : st.checked[0].chain with _ | ⟨p, ps⟩
  · exact absurd hcs (h.ne _ hmem)
  · have hp := h.shape _ hmem p (by rw [hcs]; simp)
    refine ⟨?_, hp.1⟩
    show (p.headD []).length = _
    rcases p with _ | ⟨r, rs⟩
    · have := hp.1; simp at this; omega
    · exact hp.2 r (by simp)

/-- What proceeding from a saved file gives. -/
theorem Resumable.start {cfg : McConfig} {st : McState} (h : Resumable cfg st) {c : Check} {F : H5} (hs : Saved cfg cfg.ensembles st c F) (hens : 0 < cfg.ensembles) (hnw : 0 < cfg.nwalkers)
    (cfg' : McConfig) (file : Option H5) (prev : Option (List Ens × List (List (List Fl)))) :
    startProceed cfg' F file prev = if 3 * cfg.ensembles + 6 ≠ 3 * cfg'.ensembles + 6 ∨ cfg.ndim ≠ cfg'.ndim ∨ cfg.nwalkers ≠ cfg'.nwalkers then .error .valueError else
      .ok { startFresh (st.checked.map fun s => s.chain.getLastD []) cfg'.nwalkers file prev with
        samplers := st.checked.map fun s => { s with count := 0 }, burnComplete := decide ((if c.post then st.nburn else 0) ≠ 0), nburn := if c.post then st.nburn else 0
        ncomplete := if c.post then st.nburn else 0, minafactor := st.minafactor, maxarchange := st.maxarchange, autosamples := st.autosamples, automin := st.automin, automean := st.automean, automax := st.automax } := by
  obtain ⟨c0, g1, g2, g3⟩ := h.first hs hens hnw
  have hs' := hs
  rw [← h.len] at hs'
  have hload := hs'.load
  unfold startProceed
  rw [hs.burned, hs.autosample, hs.automin, hs.automean, hs.automax]
  rw [hs.crit, hload, g1]
  simp only [H5.need, bind, Except.bind, pure, Except.pure]
  rw [g2, g3, hs.numKeys, List.map_map]
  by_cases hk : 3 * cfg.ensembles + 6 = 3 * cfg'.ensembles + 6
  · simp only [hk, ne_eq, not_true_eq_false, if_false, false_or]
    rfl
  · simp only [hk, ne_eq, not_false_eq_true, if_true, true_or]

theorem Session.inv {cfg : McConfig} {st : McState} (h : Session cfg st) : 0 < cfg.ensembles ∧ 0 < cfg.nwalkers ∧ ResumeInv cfg st ∧ Resumable cfg st := by
  induction h with
  | @fresh itime moves cfg p0 prev n st b hens hnw hci hm hp hl =>
    refine ⟨hens, hnw, ResumeInv.loop hens hnw hci hm n ⟨by simp [startFresh, hp], ?_, by simp [startFresh], 0, H5.empty, Nat.zero_le _, rfl, ⟨rfl, rfl, rfl⟩⟩ hl⟩
    intro s hs
    obtain ⟨_, _, rfl⟩ := List.mem_map.1 hs
    simp
  | @proceed cfg0 st0 F itime moves cfg prev st1 n st b _ hF hci hm hst hl ih =>
    obtain ⟨hens, hnw, hI, hR⟩ := ih
    obtain ⟨c, F', hF', hS, _, hpb⟩ := hR.saved
    rw [hF] at hF'; cases hF'
    rw [hR.start hS hens hnw] at hst
    split at hst
    · cases hst
    · rename_i hn
      push Not at hn
      have e1 : cfg.ensembles = cfg0.ensembles := by have := hn.1; omega
      have e2 : cfg.ndim = cfg0.ndim := hn.2.1.symm
      have e3 : cfg.nwalkers = cfg0.nwalkers := hn.2.2.symm
      refine ⟨by omega, by omega, ResumeInv.loop (by omega) (by omega) hci hm n ?_ hl⟩
      cases hst
      refine ⟨by simp [hR.len, e1], ?_, by simp, ⟨_, F, e1.symm.le, rfl, hS.file⟩⟩
      intro s hs
      obtain ⟨s', hs', rfl⟩ := List.mem_map.1 hs
      rw [e2, e3]
      exact hR.shape s' hs'

/-- C67 (missing: the case that burn-in ends in the last saved round; false, `C67_burn_violated`; and files that already held a run with more ensembles, `C67_leftover_violated`): in every history of saved,
interrupted and resumed runs, proceeding with the same numbers of ensembles, walkers and parameters restores the chain, log-probability and acceptance count of every ensemble, the autocorrelation history, the
autocorrelation criteria and the burn-in state. -/
theorem C67_restore_partial (cfg : McConfig) (st : McState) (h : Session cfg st) (hburn : ∀ c, st.trace.getLast? = some c → st.burnComplete = c.post) (cfg' : McConfig)
    (hens : cfg'.ensembles = cfg.ensembles) (hnd : cfg'.ndim = cfg.ndim) (hnw : cfg'.nwalkers = cfg.nwalkers) (file : Option H5) (prev : Option (List Ens × List (List (List Fl)))) :
    ∃ F st', st.file = some F ∧ startProceed cfg' F file prev = .ok st' ∧ st'.samplers.map Sampler.stored = st.samplers.map Sampler.stored ∧
      st'.burnComplete = st.burnComplete ∧ (st.burnComplete = true → st'.nburn = st.nburn) ∧
      st'.autosamples = st.autosamples ∧ st'.automin = st.automin ∧ st'.automean = st.automean ∧ st'.automax = st.automax ∧
      st'.minafactor = st.minafactor ∧ st'.maxarchange = st.maxarchange := by
  obtain ⟨h1, h2, hI, hR⟩ := h.inv
  obtain ⟨c, F, hF, hS, hsame, hpb⟩ := hR.saved
  have hb := hburn c hS.last
  have hst := hR.start hS h1 h2 cfg' file prev
  rw [if_neg (by push Not; exact ⟨by omega, hnd.symm, hnw.symm⟩)] at hst
  refine ⟨F, _, hF, hst, ?_, ?_, ?_, rfl, rfl, rfl, rfl, rfl, rfl⟩
  · rw [hsame hb]; simp [Sampler.stored]
  · show decide ((if c.post then st.nburn else 0) ≠ 0) = _
    rw [← hb]
    have := hI.burned
    cases hbc : st.burnComplete with
    | false => simp
    | true => rw [hbc] at this; simpa using this.1 rfl
  · intro hbc
    show (if c.post then st.nburn else 0) = _
    rw [← hb, hbc]; rfl

/-- C67, rejection: in every such history, proceeding with a different number of ensembles, walkers or parameters raises `ValueError`. -/
theorem C67_rejects (cfg : McConfig) (st : McState) (h : Session cfg st) (cfg' : McConfig) (hne : cfg'.ensembles ≠ cfg.ensembles ∨ cfg'.ndim ≠ cfg.ndim ∨ cfg'.nwalkers ≠ cfg.nwalkers)
    (file : Option H5) (prev : Option (List Ens × List (List (List Fl)))) : ∃ F, st.file = some F ∧ startProceed cfg' F file prev = .error .valueError := by
  obtain ⟨h1, h2, _, hR⟩ := h.inv
  obtain ⟨c, F, hF, hS, _, _⟩ := hR.saved
  refine ⟨F, hF, ?_⟩
  rw [hR.start hS h1 h2, if_pos]
  rcases hne with h | h | h
  · exact .inl (by omega)
  · exact .inr (.inl fun h' => h h'.symm)
  · exact .inr (.inr fun h' => h h'.symm)

theorem burnSession : ∃ st, Session burnConfig st ∧ st.burnComplete = true ∧ (∀ s ∈ st.samplers, s.chain = []) ∧ ∀ c ∈ st.trace, c.post = false := by
  obtain ⟨f, st, h, h1, h2, h3, _⟩ := burn_last (some H5.empty)
  refine ⟨st, ?_, h1, h2, h3⟩
  obtain ⟨n, hn⟩ := numRun_pos (nrun := burnConfig.nrun) (ci := burnConfig.checkinterval) (by decide) (by decide)
  unfold mcmcRun at h
  rw [hn] at h
  simp only [bind, Except.bind] at h
  rcases hl : mcmcLoop (fun _ => [.fin 1]) smallMoves burnConfig (n + 1) (startFresh [[[0], [0]], [[0], [0]]] 2 (some H5.empty) none) with e | ⟨st', b⟩
  · rw [hl] at h; cases h
  · rw [hl] at h
    simp only at h
    rcases hf : finish burnConfig st' with e | f'
    · rw [hf] at h; cases h
    · rw [hf] at h
      cases h
      exact Session.fresh (p0 := [[[0], [0]], [[0], [0]]]) (by decide) (by decide) (by decide) (fun i n p => ⟨smallMoves_honest.walkers i n p, smallMoves_honest.dims i n p⟩) rfl hl

/-- C67 is false: when burn-in ends in the last saved round, the file says that it has not, and proceeding brings the burn-in samples back as samples of the chain. -/
theorem C67_burn_violated : ∃ (cfg : McConfig) (st : McState) (F : H5) (st' : McState), Session cfg st ∧ st.file = some F ∧ startProceed cfg F (some F) none = .ok st' ∧
    st.burnComplete = true ∧ st'.burnComplete = false ∧ (∀ s ∈ st.samplers, s.chain = []) ∧ ∀ s ∈ st'.samplers, s.chain ≠ [] := by
  obtain ⟨st, hS, hb, he, hpost⟩ := burnSession
  obtain ⟨h1, h2, hI, hR⟩ := hS.inv
  obtain ⟨c, F, hF, hSv, _, _⟩ := hR.saved
  have hst := hR.start hSv h1 h2 burnConfig (some F) none
  rw [if_neg (by simp)] at hst
  have hc : c.post = false := hpost c (List.mem_of_mem_getLast? hSv.last)
  refine ⟨burnConfig, st, F, _, hS, hF, hst, hb, ?_, he, ?_⟩
  · show decide ((if c.post then st.nburn else 0) ≠ 0) = false
    rw [hc]; rfl
  · intro s hs
    obtain ⟨s', hs', rfl⟩ := List.mem_map.1 hs
    exact hR.ne s' hs'

/-- C67 is false for files that held a run with more ensembles: the file is opened for appending, old datasets stay, and a run saved to it cannot be continued although ensembles, walkers and parameters are
the same. -/
theorem C67_leftover_violated (cfg : McConfig) (st : McState) (h : Session cfg st) (F : H5) (hF : st.file = some F) (itime : List Ens → List Fl) (moves : Nat → Nat → Pos → Move) (cfg' : McConfig)
    (hlt : cfg'.ensembles < cfg.ensembles) (hens : 0 < cfg'.ensembles) (p0 : List Pos) (hp : p0.length = cfg'.ensembles) (prev : Option (List Ens × List (List (List Fl)))) (n : Nat) (st' : McState) (b : Bool)
    (hrun : mcmcLoop itime moves cfg' (n + 1) (startFresh p0 cfg'.nwalkers (some F) prev) = .ok (st', b)) :
    ∃ F', st'.file = some F' ∧ ∀ st'', startProceed cfg' F' (some F') none ≠ .ok st'' := by
  obtain ⟨h1, h2, hI, hR⟩ := h.inv
  obtain ⟨c, F0, hF0, hS, _, _⟩ := hR.saved
  rw [hF] at hF0; cases hF0
  obtain ⟨c', F', g1, g2⟩ := loop_saved hens n _ st' b cfg.ensembles F (by simp [startFresh, hp]) rfl hS.file hrun
  refine ⟨F', g1, fun st'' hst => ?_⟩
  obtain ⟨_, _, _, _, _, _, _, _, _, _, _, _, _, _, _, _, h9, _⟩ := startProceed_spec hst
  rw [g2.numKeys, max_eq_left hlt.le] at h9
  omega

/-- Non-vacuity of `C67_restore_partial` and `C67_rejects`: a saved run whose burn-in has not ended. -/
example : ∃ (cfg : McConfig) (st : McState), Session cfg st ∧ ∀ c, st.trace.getLast? = some c → st.burnComplete = c.post := by
  let cfg : McConfig := { smallConfig with burnGR := .nan, burnAfactor := .nan }
  obtain ⟨st, b, hl⟩ := mcmcLoop_total (fun _ => [.fin 1]) smallMoves cfg (by decide) (by decide) (by decide) (by decide) (by decide) (by simp) 1
    (startFresh [[[0], [0]], [[0], [0]]] cfg.nwalkers (some H5.empty) none) ⟨by simp [startFresh], by intro l hl; cases hl⟩
  have hS : Session cfg st := Session.fresh (p0 := [[[0], [0]], [[0], [0]]]) (by decide) (by decide) (by decide)
    (fun i n p => ⟨smallMoves_honest.walkers i n p, smallMoves_honest.dims i n p⟩) rfl hl
  have hb : st.burnComplete = false := by
    unfold mcmcLoop at hl
    rcases hr : mcmcRound (fun _ => [.fin 1]) smallMoves cfg (startFresh [[[0], [0]], [[0], [0]]] cfg.nwalkers (some H5.empty) none) with e | st1
    · rw [hr] at hl; cases hl
    · rw [hr] at hl
      have hst1 : st1.burnComplete = false := by
        obtain ⟨stc, hc, rfl⟩ := mcmcRound_spec hr
        obtain ⟨fr, _⟩ := convergenceCheck_spec hc
        unfold burnStep
        split
        · rename_i hb
          rcases hb.2 with h | h
          · simp only [cfg, Fl.leq] at h
            split at h <;> simp_all
          · exact absurd h (by simp [cfg, Fl.leq])
        · exact fr.burnComplete
      simp only at hl
      split at hl
      · cases hl; exact hst1
      · unfold mcmcLoop at hl; cases hl; exact hst1
  refine ⟨cfg, st, hS, ?_⟩
  obtain ⟨_, _, _, hR⟩ := hS.inv
  obtain ⟨c, F, _, hSv, _, hpb⟩ := hR.saved
  intro c' hc'
  have := hSv.last
  rw [hc'] at this
  cases this
  rw [hb]
  cases hp : c.post with
  | false => rfl
  | true => rw [hpb hp] at hb; cases hb

/-- Non-vacuity of `C67_leftover_violated`: such files and runs exist. -/
example : ∃ (st st' : McState) (F : H5) (b : Bool), Session burnConfig st ∧ st.file = some F ∧
    mcmcLoop (fun _ => [.fin 1]) smallMoves { smallConfig with ensembles := 1 } 1 (startFresh [[[0], [0]]] 2 (some F) none) = .ok (st', b) := by
  obtain ⟨st, hS, _⟩ := burnSession
  obtain ⟨_, _, _, hR⟩ := hS.inv
  obtain ⟨c, F, hF, _⟩ := hR.saved
  obtain ⟨st', b, hl⟩ := mcmcLoop_total (fun _ => [.fin 1]) smallMoves { smallConfig with ensembles := 1 } (by decide) (by decide) (by decide) (by decide) (by decide) (by simp) 1
    (startFresh [[[0], [0]]] 2 (some F) none) ⟨by simp [startFresh], by intro l hl; cases hl⟩
  exact ⟨st, st', F, b, hS, hF, hl⟩

end Radvel
