import Verif.Lemmas.Mcmc

/-! Rounds of the MCMC loop do not raise. -/

namespace Radvel
open Classical

theorem pyMin_ok {l : List Fl} (h : l ≠ []) : ∃ a, Fl.pyMin l = .ok a := by
  cases l with
  | nil => exact absurd rfl h
  | cons x l => exact ⟨_, rfl⟩

theorem pyMax_ok {l : List Fl} (h : l ≠ []) : ∃ a, Fl.pyMax l = .ok a := by
  cases l with
  | nil => exact absurd rfl h
  | cons x l => exact ⟨_, rfl⟩

theorem npMin_ok {l : List Fl} (h : l ≠ []) : ∃ a, Fl.npMin l = .ok a := by
  unfold Fl.npMin
  split
  · exact ⟨_, rfl⟩
  · exact pyMin_ok h

theorem npMax_ok {l : List Fl} (h : l ≠ []) : ∃ a, Fl.npMax l = .ok a := by
  unfold Fl.npMax
  split
  · exact ⟨_, rfl⟩
  · exact pyMax_ok h

theorem tzOf_ne (n m : ℝ) (pars : List (List (List ℝ))) : tzOf n m pars ≠ [] := by
  unfold tzOf
  split
  · simp only
    split
    · simp
    · assumption
  · simp

theorem conv_total (itime : List Ens → List Fl) (chains : List Ens) (old : Option (List Fl)) (th : Thresholds) (hne : chains ≠ []) (h0 : ∀ e ∈ chains, e ≠ [])
    (hs : ∀ e ∈ chains, 1 < (e.getD 0 []).flatten.length) (hi : itime chains ≠ []) (ho : ∀ l, old = some l → l ≠ []) :
    ∃ out, convergenceCalculate itime chains old th = .ok out := by
  cases chains with
  | nil => exact absurd rfl hne
  | cons e0 es =>
    unfold convergenceCalculate
    simp only
    rw [if_neg (not_not.2 (hs e0 (by simp)))]
    have hgr : (List.map (grOf ((e0.getD 0 []).flatten.length : ℝ)) ((List.range e0.length).map (parChains (e0 :: es)))) ≠ [] := by
      have := h0 e0 (by simp)
      simpa using this
    have har : archangeOf (itime (e0 :: es)) old ≠ [] := by
      cases old with
      | none => simpa [archangeOf] using hi
      | some l =>
        have := ho l rfl
        simp only [archangeOf, ne_eq, List.zipWith_eq_nil_iff, not_or]
        exact ⟨hi, this⟩
    obtain ⟨a, ha⟩ := pyMin_ok (tzOf_ne ((e0.getD 0 []).flatten.length : ℝ) ((e0 :: es).length : ℝ) ((List.range e0.length).map (parChains (e0 :: es))))
    obtain ⟨b, hb⟩ := pyMax_ok hgr
    obtain ⟨c, hc⟩ := npMin_ok (l := (itime (e0 :: es)).map (Fl.div (.fin (((e0 :: es).length : ℝ) * ((e0.getD 0 []).getD 0 []).length)))) (by simpa using hi)
    obtain ⟨d, hd⟩ := npMax_ok har
    rw [ha, hb, hc, hd]
    exact ⟨_, rfl⟩

theorem chainT_rect (nd nw : Nat) (s : Sampler) : (chainT nd nw s).length = nd ∧ ∀ p ∈ chainT nd nw s, p.length = nw ∧ ∀ w ∈ p, w.length = s.chain.length := by
  refine ⟨by simp [chainT], ?_⟩
  intro p hp
  obtain ⟨d, _, rfl⟩ := List.mem_map.1 hp
  refine ⟨by simp, ?_⟩
  intro w hw
  obtain ⟨k, _, rfl⟩ := List.mem_map.1 hw
  simp

theorem checkStats_total (itime : List Ens → List Fl) (cfg : McConfig) (st : McState) (chains : List Ens) (hne : chains ≠ []) (h0 : ∀ e ∈ chains, e ≠ [])
    (hs : ∀ e ∈ chains, 1 < (e.getD 0 []).flatten.length) (hi : itime chains ≠ []) (ho : ∀ l, st.oac = some l → l ≠ []) : ∃ st', checkStats itime cfg st chains = .ok st' := by
  obtain ⟨out, hout⟩ := conv_total itime chains st.oac cfg.th hne h0 hs hi ho
  obtain ⟨hac, _, a, b, c, d, ha, hb, hc, hd, _⟩ := conv_raw hout
  obtain ⟨x, hx⟩ := npMin_ok (l := out.autocorrelation) (by rw [hac]; exact hi)
  obtain ⟨y, hy⟩ := npMax_ok (l := out.autocorrelation) (by rw [hac]; exact hi)
  unfold checkStats
  rw [hout]
  simp only [bind, Except.bind, ha, hb, hc, hd, hx, hy]
  exact ⟨_, rfl⟩

theorem convergenceCheck_total (itime : List Ens → List Fl) (cfg : McConfig) (st : McState) (hnd : 0 < cfg.ndim) (hnw : 0 < cfg.nwalkers) (hrun : 0 < cfg.nrun) (hens : 0 < cfg.ensembles)
    (hne : st.samplers ≠ []) (hlen : ∀ s ∈ st.samplers, 2 ≤ s.chain.length) (hi : ∀ chains, itime chains ≠ []) (ho : ∀ l, st.oac = some l → l ≠ []) :
    ∃ st', convergenceCheck itime cfg st = .ok st' := by
  unfold convergenceCheck
  simp only
  rw [if_neg (by have := Nat.mul_pos (Nat.mul_pos hrun hnw) hens; omega)]
  rcases hl : st.samplers.getLast? with _ | last
  · rw [List.getLast?_eq_none_iff] at hl; exact absurd hl hne
  · simp only
    split
    · exact ⟨_, rfl⟩
    · apply checkStats_total
      · simpa using hne
      · intro e he
        obtain ⟨s, _, rfl⟩ := List.mem_map.1 he
        intro h0
        have := (chainT_rect cfg.ndim cfg.nwalkers s).1
        rw [h0] at this
        simp at this
        omega
      · intro e he
        obtain ⟨s, hs, rfl⟩ := List.mem_map.1 he
        obtain ⟨h1, h2⟩ := chainT_rect cfg.ndim cfg.nwalkers s
        have hlt : 0 < (chainT cfg.ndim cfg.nwalkers s).length := by rw [h1]; exact hnd
        rw [List.getD_eq_getElem _ _ hlt, flatten_length _ _ _ (h2 _ (List.getElem_mem hlt))]
        have := hlen s hs
        nlinarith
      · exact hi _
      · exact ho

theorem advance_chain_length (moves : Nat → Pos → Move) (n : Nat) : ∀ (s : Sampler) (p : Pos), (s.advance moves p n).chain.length = s.chain.length + n ∧
    (s.advance moves p n).logProb.length = s.logProb.length + n ∧ (s.advance moves p n).count = s.count + n := by
  induction n with
  | zero => intro s p; exact ⟨rfl, rfl, rfl⟩
  | succ n ih =>
    intro s p
    unfold Sampler.advance
    obtain ⟨h1, h2, h3⟩ := ih (s.store (moves s.count p)) (moves s.count p).pos
    simp only
    rw [h1, h2, h3]
    simp only [Sampler.store, List.length_append, List.length_cons, List.length_nil]
    exact ⟨by omega, by omega, by omega⟩

theorem block_length (ci : Nat) (hci : 1 ≤ ci) (moves : Nat → Pos → Move) (started : Bool) (s : Sampler) (init : Pos) :
    (block ci moves started s init).chain.length = s.chain.length + ci ∧ (block ci moves started s init).logProb.length = s.logProb.length + ci ∧
    (block ci moves started s init).count = s.count + ci := by
  unfold block
  simp only
  obtain ⟨h1, h2, h3⟩ := advance_chain_length moves (ci - 1) (s.advance moves (startPos started s init) 1) (startPos started s init)
  obtain ⟨h4, h5, h6⟩ := advance_chain_length moves 1 s (startPos started s init)
  omega

theorem blocks_mem (ci : Nat) (moves : Nat → Nat → Pos → Move) : ∀ (ss : List Sampler) (started : Bool) (i : Nat) (inits : List Pos) (s : Sampler), s ∈ blocks ci moves started i ss inits →
    ∃ s0 ∈ ss, ∃ j b init, s = block ci (moves j) b s0 init := by
  intro ss
  induction ss with
  | nil => intro started i inits s hs; simp [blocks] at hs
  | cons a ss ih =>
    intro started i inits s hs
    unfold blocks at hs
    rcases List.mem_cons.1 hs with rfl | hs
    · exact ⟨a, by simp, i, started, inits.headD [], rfl⟩
    · obtain ⟨s0, h0, j, b, init, h1⟩ := ih true (i + 1) inits.tail s hs
      exact ⟨s0, by simp [h0], j, b, init, h1⟩

theorem blocks_length (ci : Nat) (moves : Nat → Nat → Pos → Move) : ∀ (ss : List Sampler) (started : Bool) (i : Nat) (inits : List Pos), (blocks ci moves started i ss inits).length = ss.length := by
  intro ss
  induction ss with
  | nil => intros; rfl
  | cons a ss ih => intro started i inits; simp [blocks, ih]

theorem mcmcRound_total (itime : List Ens → List Fl) (moves : Nat → Nat → Pos → Move) (cfg : McConfig) (st : McState) (hnd : 0 < cfg.ndim) (hnw : 0 < cfg.nwalkers) (hrun : 0 < cfg.nrun)
    (hens : 0 < cfg.ensembles) (hci : 2 ≤ cfg.checkinterval) (hne : st.samplers ≠ []) (hi : ∀ chains, itime chains ≠ []) (ho : ∀ l, st.oac = some l → l ≠ []) :
    ∃ st', mcmcRound itime moves cfg st = .ok st' := by
  obtain ⟨stc, hc⟩ := convergenceCheck_total itime cfg (afterBlocks cfg moves st) hnd hnw hrun hens
    (by intro h0
        have : (blocks cfg.checkinterval moves st.started 0 st.samplers st.inits).length = st.samplers.length := blocks_length _ _ _ _ _ _
        have h0' : blocks cfg.checkinterval moves st.started 0 st.samplers st.inits = [] := h0
        rw [h0'] at this
        exact hne (List.length_eq_zero_iff.1 this.symm))
    (by intro s hs
        obtain ⟨s0, _, j, b, init, rfl⟩ := blocks_mem _ _ _ _ _ _ s hs
        have := (block_length cfg.checkinterval (by omega) (moves j) b s0 init).1
        omega)
    hi ho
  unfold mcmcRound
  change ∃ st', (convergenceCheck itime cfg (afterBlocks cfg moves st) >>= _) = _
  rw [hc]
  exact ⟨_, rfl⟩

/-- What keeps the loop going. -/
structure Going (st : McState) : Prop where
  ne : st.samplers ≠ []
  oac : ∀ l, st.oac = some l → l ≠ []

theorem burnStep_samplers (cfg : McConfig) (st : McState) : (burnStep cfg st).samplers = st.samplers ∨ (burnStep cfg st).samplers = st.samplers.map Sampler.reset := by
  unfold burnStep
  split
  · exact .inr rfl
  · exact .inl rfl

theorem Going.round {itime : List Ens → List Fl} {moves : Nat → Nat → Pos → Move} {cfg : McConfig} {st st' : McState} (hg : Going st) (hi : ∀ chains, itime chains ≠ [])
    (h : mcmcRound itime moves cfg st = .ok st') : Going st' := by
  obtain ⟨stc, hc, rfl⟩ := mcmcRound_spec h
  obtain ⟨fr, _, _, hne, _, hcase⟩ := convergenceCheck_spec hc
  constructor
  · rcases burnStep_samplers cfg { stc with file := stc.file.map (saveAll stc 0 stc.samplers) } with h1 | h1
    · rw [h1]; show stc.samplers ≠ []; rw [fr.samplers]; exact hne
    · rw [h1]; show stc.samplers.map _ ≠ []; rw [fr.samplers]; simpa using hne
  · intro l hl
    rw [(burnStep_fields cfg _).2.2.1] at hl
    rcases hcase with ⟨_, h2, _⟩ | ⟨out, _, h1, _, _, h4, _⟩
    · exact hg.oac l (by rw [← show stc.oac = st.oac from h2]; exact hl)
    · have hl' : stc.oac = some l := hl
      rw [h4] at hl'
      cases hl'
      rw [(conv_raw h1).1]
      exact hi _

theorem mcmcLoop_total (itime : List Ens → List Fl) (moves : Nat → Nat → Pos → Move) (cfg : McConfig) (hnd : 0 < cfg.ndim) (hnw : 0 < cfg.nwalkers) (hrun : 0 < cfg.nrun)
    (hens : 0 < cfg.ensembles) (hci : 2 ≤ cfg.checkinterval) (hi : ∀ chains, itime chains ≠ []) : ∀ (n : Nat) (st : McState), Going st →
    ∃ st' b, mcmcLoop itime moves cfg n st = .ok (st', b) := by
  intro n
  induction n with
  | zero => intro st _; exact ⟨st, false, rfl⟩
  | succ n ih =>
    intro st hg
    obtain ⟨st1, h1⟩ := mcmcRound_total itime moves cfg st hnd hnw hrun hens hci hg.ne hi hg.oac
    unfold mcmcLoop
    rw [h1]
    simp only
    split
    · exact ⟨st1, true, rfl⟩
    · exact ih st1 (hg.round hi h1)

end Radvel
