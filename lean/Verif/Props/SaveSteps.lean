import Verif.Lemmas.SaveSteps
import Verif.Props.Save

/-! # C177: stopping a run while it saves -/

namespace Radvel
open Classical

/-- The next round of a saving session and the file it has when it is stopped after `k` operations. -/
theorem stopped_spec {cfg : McConfig} {st : McState} (h : Session cfg st) {itime : List Ens → List Fl} {moves : Nat → Nat → Pos → Move} (hci : 1 ≤ cfg.checkinterval)
    (hm : ShapedMoves cfg.ndim cfg.nwalkers moves) {k : Nat} {G : Option H5} (hG : stoppedFile itime moves cfg k st = .ok G) :
    ∃ c F stc st1, st.file = some F ∧ Saved cfg cfg.ensembles st c F ∧ convergenceCheck itime cfg (afterBlocks cfg moves st) = .ok stc ∧
      G = some (runSteps ((saveSteps stc 0 stc.samplers).take k) F) ∧ mcmcRound itime moves cfg st = .ok st1 ∧ st1.file = some (saveAll stc 0 stc.samplers F) ∧
      st1.checked = stc.samplers ∧ stc.samplers.length = cfg.ensembles ∧ Resumable cfg st1 ∧ Resumable cfg st := by
  obtain ⟨h1, h2, hI, hR⟩ := h.inv
  obtain ⟨c, F, hF, hS, _, _⟩ := hR.saved
  unfold stoppedFile at hG
  change (convergenceCheck itime cfg (afterBlocks cfg moves st) >>= _) = _ at hG
  rcases hc : convergenceCheck itime cfg (afterBlocks cfg moves st) with e | stc
  · rw [hc] at hG; cases hG
  · rw [hc] at hG
    have hround : mcmcRound itime moves cfg st = .ok (burnStep cfg { stc with file := stc.file.map (saveAll stc 0 stc.samplers) }) := by
      unfold mcmcRound
      change (convergenceCheck itime cfg (afterBlocks cfg moves st) >>= _) = _
      rw [hc]; rfl
    obtain ⟨fr, _, hchk, _⟩ := convergenceCheck_spec hc
    obtain ⟨_, _, _, _, b5, b6, _⟩ := burnStep_fields cfg { stc with file := stc.file.map (saveAll stc 0 stc.samplers) }
    have hff : stc.file = some F := by rw [fr.file]; exact hF
    have hchk' : stc.checked = stc.samplers := by rw [hchk, fr.samplers]
    refine ⟨c, F, stc, _, hF, hS, rfl, ?_, hround, ?_, ?_, ?_, (hI.round h1 h2 hci hm hround).2, hR⟩
    · simp only [bind, Except.bind, pure, Except.pure, Except.ok.injEq] at hG
      rw [← hG, hff]; rfl
    · rw [b6]; show stc.file.map _ = _; rw [hff]; rfl
    · rw [b5]; exact hchk'
    · rw [fr.samplers]
      show (blocks cfg.checkinterval moves st.started 0 st.samplers st.inits).length = _
      rw [blocks_length]; exact hI.len

/-- C177 (missing: stops while the file is being written; false there, `C177_lost_violated` and `C177_mixed_violated`): in every history of saved, interrupted and resumed runs, a run that is stopped before
the first operation of a save can be continued from the round before, and one that is stopped after the last operation from the round just finished: continuing gives the same state as continuing from the
complete file of that round. -/
theorem C177_stopped_partial (cfg : McConfig) (st : McState) (h : Session cfg st) (itime : List Ens → List Fl) (moves : Nat → Nat → Pos → Move) (hci : 1 ≤ cfg.checkinterval)
    (hm : ShapedMoves cfg.ndim cfg.nwalkers moves) (k : Nat) (G : H5) (hG : stoppedFile itime moves cfg k st = .ok (some G)) (cfg' : McConfig) (file : Option H5)
    (prev : Option (List Ens × List (List (List Fl)))) :
    ∃ F st1 F1, st.file = some F ∧ mcmcRound itime moves cfg st = .ok st1 ∧ st1.file = some F1 ∧
      (k = 0 → startProceed cfg' G file prev = startProceed cfg' F file prev) ∧
      (18 * cfg.ensembles ≤ k → startProceed cfg' G file prev = startProceed cfg' F1 file prev) := by
  obtain ⟨c, F, stc, st1, hF, hS, hc, hg, hr, hF1, _, hl, _⟩ := stopped_spec h hci hm hG
  cases hg
  refine ⟨F, st1, _, hF, hr, hF1, fun h0 => ?_, fun hk => ?_⟩
  · subst h0; rfl
  · rw [List.take_of_length_le (by rw [saveSteps_length, hl]; exact hk)]
    obtain ⟨s1, s2⟩ := saveSteps_same stc stc.samplers 0 F hS.file.nodup
    exact s1.start s2 (saveAll_spec stc stc.samplers 0 _ F hS.file (Nat.zero_le _)).1.nodup cfg' file prev

/-- C177 is false inside the save of an ensemble: in every history, stopping between any two of its eighteen operations leaves a file from which a run with the same number of ensembles cannot be
continued, neither from this round nor from the one before. -/
theorem C177_lost_violated (cfg : McConfig) (st : McState) (h : Session cfg st) (itime : List Ens → List Fl) (moves : Nat → Nat → Pos → Move) (hci : 1 ≤ cfg.checkinterval)
    (hm : ShapedMoves cfg.ndim cfg.nwalkers moves) (k : Nat) (hk : k < 18 * cfg.ensembles) (hin : k % 18 ≠ 0) (G : H5) (hG : stoppedFile itime moves cfg k st = .ok (some G)) (cfg' : McConfig)
    (hens : cfg'.ensembles = cfg.ensembles) (file : Option H5) (prev : Option (List Ens × List (List (List Fl)))) : ∃ e, startProceed cfg' G file prev = .error e := by
  obtain ⟨c, F, stc, st1, hF, hS, hc, hg, hr, hF1, _, hl, _⟩ := stopped_spec h hci hm hG
  cases hg
  have he : k / 18 < stc.samplers.length := by rw [hl]; omega
  have hsplit := saveSteps_take stc stc.samplers 0 (k / 18) (k % 18) (Nat.mod_lt _ (by decide)) he
  rw [Nat.div_add_mod, zero_add] at hsplit
  rw [hsplit, runSteps_append]
  obtain ⟨s1, s2⟩ := saveSteps_same stc (stc.samplers.take (k / 18)) 0 F hS.file.nodup
  have hfile := (saveAll_spec stc (stc.samplers.take (k / 18)) 0 _ F hS.file (Nat.zero_le _)).1
  rw [zero_add, List.length_take, max_eq_left (by omega)] at hfile
  have hlen : ∀ {ν : Type} {d : Dict Nat ν}, d.keys = List.range cfg.ensembles → d.length = cfg.ensembles := by
    intro ν d hd; rw [← Dict.length_keys, hd, List.length_range]
  have hmem : ∀ {ν : Type} {d e : Dict Nat ν}, (∀ j, d.get? j = e.get? j) → e.keys = List.range cfg.ensembles → k / 18 ∈ d.keys := by
    intro ν d e hd he'
    rw [← Dict.get?_isSome_iff, hd, Dict.get?_isSome_iff, he', List.mem_range, ← hl]; exact he
  apply startProceed_few
  rw [hens]
  exact block_missing stc _ (k / 18) _ cfg.ensembles s2 (by rw [dict_length_same s2.chain hfile.nodup.chain s1.chain, hlen hfile.chain])
    (by rw [dict_length_same s2.logProb hfile.nodup.logProb s1.logProb, hlen hfile.logProb]) (by rw [dict_length_same s2.accepted hfile.nodup.accepted s1.accepted, hlen hfile.accepted])
    (hmem s1.chain hfile.chain) (hmem s1.logProb hfile.logProb) (hmem s1.accepted hfile.accepted) (k % 18) (by omega) (Nat.mod_lt _ (by decide))

/-- Stopping between two ensembles: continuing takes the ensembles before the stop from this round and the others from the round before, and the burn-in state from this round. -/
theorem C177_between (cfg : McConfig) (st : McState) (h : Session cfg st) (itime : List Ens → List Fl) (moves : Nat → Nat → Pos → Move) (hci : 1 ≤ cfg.checkinterval)
    (hm : ShapedMoves cfg.ndim cfg.nwalkers moves) (i : Nat) (h0 : 0 < i) (hi : i < cfg.ensembles) (G : H5) (hG : stoppedFile itime moves cfg (18 * i) st = .ok (some G)) (cfg' : McConfig)
    (hens : cfg'.ensembles = cfg.ensembles) (hnd : cfg'.ndim = cfg.ndim) (hnw : cfg'.nwalkers = cfg.nwalkers) (file : Option H5) (prev : Option (List Ens × List (List (List Fl)))) :
    ∃ st1 st', mcmcRound itime moves cfg st = .ok st1 ∧ startProceed cfg' G file prev = .ok st' ∧
      st'.samplers.map Sampler.stored = (st1.checked.take i ++ st.checked.drop i).map Sampler.stored ∧ st'.burnComplete = st.burnComplete := by
  obtain ⟨c, F, stc, st1, hF, hS, hc, hg, hr, hF1, hck, hl, hR1, hR⟩ := stopped_spec h hci hm hG
  cases hg
  obtain ⟨e1, e2, hI, _⟩ := h.inv
  obtain ⟨fr, _, _, _, _, hcase⟩ := convergenceCheck_spec hc
  have htr : ∃ c : Check, stc.trace = st.trace ++ [c] ∧ c.post = st.burnComplete := by
    rcases hcase with ⟨_, _, c3⟩ | ⟨_, _, _, _, _, _, _, c6⟩
    · exact ⟨_, c3, rfl⟩
    · exact ⟨_, c6, rfl⟩
  obtain ⟨c', htr, hpost⟩ := htr
  have hbc : stc.burnComplete = st.burnComplete := fr.burnComplete
  have hnb : stc.nburn = st.nburn := fr.nburn
  have hsplit := saveSteps_take stc stc.samplers 0 i 0 (by decide) (by omega)
  rw [Nat.add_zero, List.take_zero, List.append_nil] at hsplit
  rw [hsplit]
  obtain ⟨s1, s2⟩ := saveSteps_same stc (stc.samplers.take i) 0 F hS.file.nodup
  obtain ⟨g1, g2, _, g4⟩ := saveAll_spec stc (stc.samplers.take i) 0 _ F hS.file (Nat.zero_le _)
  have g5 := saveAll_after stc (stc.samplers.take i) 0
  have hti : (stc.samplers.take i).length = i := by rw [List.length_take]; omega
  rw [zero_add, hti, max_eq_left (by omega)] at g1
  obtain ⟨k1, k2, k3, k4, k5, k6⟩ := g4 (by intro h'; rw [h'] at hti; simp at hti; omega)
  let L := stc.samplers.take i ++ st.checked.drop i
  let stm : McState := { stc with samplers := L, checked := L, file := some (saveAll stc 0 (stc.samplers.take i) F) }
  have hLlen : L.length = cfg.ensembles := by simp only [L, List.length_append, List.length_drop, hti, hR.len]; omega
  have hLmem : ∀ s ∈ L, s ∈ st1.checked ∨ s ∈ st.checked := by
    intro s hs
    rcases List.mem_append.1 hs with hs | hs
    · rw [hck]; exact .inl (List.mem_of_mem_take hs)
    · exact .inr (List.mem_of_mem_drop hs)
  have hSm : Saved cfg cfg.ensembles stm c' (saveAll stc 0 (stc.samplers.take i) F) := by
    refine ⟨?_, g1, ?_, k1, k2, k3, k4, k5, ?_⟩
    · show stc.trace.getLast? = _; rw [htr]; simp
    · intro j s hs
      have hs' : L[j]? = some s := hs
      rcases Nat.lt_or_ge j i with hj | hj
      · rw [List.getElem?_append_left (by rw [hti]; exact hj)] at hs'
        have := g2 j s hs'
        rwa [zero_add] at this
      · rw [List.getElem?_append_right (by rw [hti]; exact hj), hti, List.getElem?_drop, show i + (j - i) = j by omega] at hs'
        obtain ⟨a1, a2, a3⟩ := g5 j F (by rw [zero_add, hti]; exact hj)
        rw [a1, a2, a3]
        exact hS.got j s hs'
    · rw [k6]
      show some (if stc.burnComplete then stc.nburn else 0) = some (if c'.post then stc.nburn else 0)
      rw [hpost, hbc]
  have hRm : Resumable cfg stm := by
    refine ⟨⟨c', _, rfl, hSm, fun _ => rfl, fun hp => ?_⟩, hLlen, ?_, ?_⟩
    · show stc.burnComplete = true
      rw [hbc, ← hpost]; exact hp
    · intro s hs
      rcases hLmem s hs with hs | hs
      · exact hR1.shape s hs
      · exact hR.shape s hs
    · intro s hs
      rcases hLmem s hs with hs | hs
      · exact hR1.ne s hs
      · exact hR.ne s hs
  have hst := hRm.start hSm e1 e2 cfg' file prev
  rw [if_neg (by push Not; exact ⟨by omega, hnd.symm, hnw.symm⟩)] at hst
  refine ⟨st1, _, hr, (s1.start s2 g1.nodup cfg' file prev).trans hst, ?_, ?_⟩
  · show ((L.map fun s => { s with count := 0 }).map Sampler.stored) = _
    rw [hck, List.map_map]
    rfl
  · show decide ((if c'.post then stc.nburn else 0) ≠ 0) = _
    rw [hpost, hnb]
    have := hI.burned
    cases hb : st.burnComplete with
    | false => simp
    | true => rw [hb] at this; simpa using this.1 rfl

/-- C177 is false between two ensembles: when burn-in ended in the round before, so that every sample of its file is a burn-in sample, a run stopped there can be continued, but then counts as being past its
burn-in although the ensembles after the stop still hold all their burn-in samples. -/
theorem C177_mixed_violated (cfg : McConfig) (st : McState) (h : Session cfg st) (hb : st.burnComplete = true) (hpost : ∀ c ∈ st.trace, c.post = false) (itime : List Ens → List Fl)
    (moves : Nat → Nat → Pos → Move) (hci : 1 ≤ cfg.checkinterval) (hm : ShapedMoves cfg.ndim cfg.nwalkers moves) (i : Nat) (h0 : 0 < i) (hi : i < cfg.ensembles) (G : H5)
    (hG : stoppedFile itime moves cfg (18 * i) st = .ok (some G)) (file : Option H5) (prev : Option (List Ens × List (List (List Fl)))) :
    ∃ F st', st.file = some F ∧ F.burned = some 0 ∧ startProceed cfg G file prev = .ok st' ∧ st'.burnComplete = true ∧
      ∀ j, i ≤ j → j < cfg.ensembles → ∃ s, st'.samplers[j]? = some s ∧ F.chain.get? j = some s.chain ∧ s.chain ≠ [] := by
  obtain ⟨st1, st', hr, hst, hsame, hbc⟩ := C177_between cfg st h itime moves hci hm i h0 hi G hG cfg rfl rfl rfl file prev
  obtain ⟨_, _, _, hR⟩ := h.inv
  obtain ⟨c, F, hF, hS, _, _⟩ := hR.saved
  obtain ⟨_, _, _, st1', _, _, _, _, hr', _, hck, hl, _⟩ := stopped_spec h hci hm hG
  rw [hr] at hr'; cases hr'
  have hc : c.post = false := hpost c (List.mem_of_mem_getLast? hS.last)
  refine ⟨F, st', hF, by rw [hS.burned, hc]; rfl, hst, hbc.trans hb, fun j hj hjm => ?_⟩
  have hj' : j < st.checked.length := by rw [hR.len]; exact hjm
  have hlen1 : (st1.checked.take i).length = i := by rw [hck, List.length_take, hl]; omega
  have hj1 := congrArg (fun l => l[j]?) hsame
  simp only [List.getElem?_map] at hj1
  rw [List.getElem?_append_right (by rw [hlen1]; exact hj), hlen1, List.getElem?_drop, show i + (j - i) = j by omega, List.getElem?_eq_getElem hj'] at hj1
  rcases hs : st'.samplers[j]? with _ | s
  · rw [hs] at hj1; cases hj1
  · rw [hs] at hj1
    have he : s.stored = st.checked[j].stored := by simpa using hj1
    have hch : s.chain = st.checked[j].chain := congrArg Prod.fst he
    refine ⟨s, rfl, ?_, ?_⟩
    · rw [hch]; exact (hS.got j _ (List.getElem?_eq_getElem hj')).1
    · rw [hch]; exact hR.ne _ (List.getElem_mem hj')

/-- Like `burnConfig`, for at most ten rounds. -/
noncomputable def burnTen : McConfig := { burnConfig with nrun := 10 }

theorem burnTen_check (itime : List Ens → List Fl) (st : McState) : convergenceCheck itime burnTen st = convergenceCheck itime burnConfig st := by
  have hneg : ∀ a b : Nat, ¬ ((a : ℝ) / b * 100 < 0) := fun a b => not_lt.2 (by positivity)
  unfold convergenceCheck
  simp only [burnTen, burnConfig, smallConfig, hneg, false_and, if_false]
  rfl

theorem burnTen_loop (itime : List Ens → List Fl) (moves : Nat → Nat → Pos → Move) : ∀ (n : Nat) (st : McState), mcmcLoop itime moves burnTen n st = mcmcLoop itime moves burnConfig n st := by
  have hround : ∀ st, mcmcRound itime moves burnTen st = mcmcRound itime moves burnConfig st := by
    intro st
    unfold mcmcRound
    simp only [burnTen_check]
    rfl
  intro n
  induction n with
  | zero => intro st; rfl
  | succ n ih =>
    intro st
    unfold mcmcLoop
    rw [hround]
    simp only [ih]

/-- Non-vacuity of the theorems of this file: a run of ten rounds whose burn-in ends in the first, and whose second round is stopped after any number of operations. -/
example (k : Nat) : ∃ (st : McState) (G : H5), Session burnTen st ∧ st.burnComplete = true ∧ (∀ c ∈ st.trace, c.post = false) ∧ ShapedMoves burnTen.ndim burnTen.nwalkers smallMoves ∧
    1 ≤ burnTen.checkinterval ∧ 1 < burnTen.ensembles ∧ stoppedFile (fun _ => [.fin 1]) smallMoves burnTen k st = .ok (some G) := by
  obtain ⟨f, st, h1, hb, _, hpost, _⟩ := burn_last (some H5.empty)
  obtain ⟨n, hn, hl, _⟩ := mcmcRun_spec h1
  obtain ⟨m, hm⟩ := numRun_pos (nrun := burnConfig.nrun) (ci := burnConfig.checkinterval) (by decide) (by decide)
  rw [hm] at hn
  cases hn
  have hg : Going st := mcmcLoop_invariant Going (fun a b ha hr => ha.round (by simp) hr) _ _ _ _ ⟨by simp [startFresh], by intro l hl; cases hl⟩ hl
  have hsh : ShapedMoves burnTen.ndim burnTen.nwalkers smallMoves := fun i n p => ⟨smallMoves_honest.walkers i n p, smallMoves_honest.dims i n p⟩
  have hS : Session burnTen st := Session.fresh (p0 := [[[0], [0]], [[0], [0]]]) (by decide) (by decide) (by decide) hsh rfl (by rw [burnTen_loop]; exact hl)
  obtain ⟨st', h⟩ := mcmcRound_total (fun _ => [.fin 1]) smallMoves burnTen st (by decide) (by decide) (by decide) (by decide) (by decide) hg.ne (by simp) hg.oac
  obtain ⟨stc, hc, rfl⟩ := mcmcRound_spec h
  obtain ⟨fr, _⟩ := convergenceCheck_spec hc
  obtain ⟨_, _, _, hR⟩ := hS.inv
  obtain ⟨c, F, hF, _⟩ := hR.saved
  have hff : stc.file = some F := by rw [fr.file]; exact hF
  refine ⟨st, runSteps ((saveSteps stc 0 stc.samplers).take k) F, hS, hb, hpost, hsh, by decide, by decide, ?_⟩
  unfold stoppedFile
  change (convergenceCheck (fun _ => [.fin 1]) burnTen (afterBlocks burnTen smallMoves st) >>= _) = _
  rw [hc]
  simp only [bind, Except.bind, pure, Except.pure]
  rw [hff]
  rfl

end Radvel
