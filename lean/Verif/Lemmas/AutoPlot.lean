import Verif.Spec.AutoPlot
import Verif.Spec.Progress
import Verif.Props.Save

/-! Lemmas for C160. -/

namespace Radvel
open Classical

theorem foldl_minStep_fin : ∀ (t : List ℝ) (a : ℝ), ∃ b, (t.map Fl.fin).foldl Fl.minStep (.fin a) = .fin b ∧ (b = a ∨ b ∈ t) ∧ b ≤ a ∧ ∀ x ∈ t, b ≤ x := by
  intro t
  induction t with
  | nil => intro a; exact ⟨a, rfl, .inl rfl, le_rfl, by simp⟩
  | cons y t ih =>
    intro a
    by_cases h : y < a
    · obtain ⟨b, h1, h2, h3, h4⟩ := ih y
      refine ⟨b, ?_, ?_, by linarith, ?_⟩
      · rw [List.map_cons, List.foldl_cons, Fl.minStep, if_pos (show Fl.lt (.fin y) (.fin a) from h), h1]
      · rcases h2 with rfl | h2 <;> simp_all
      · intro x hx
        rcases List.mem_cons.1 hx with rfl | hx
        · exact h3
        · exact h4 x hx
    · obtain ⟨b, h1, h2, h3, h4⟩ := ih a
      refine ⟨b, ?_, ?_, h3, ?_⟩
      · rw [List.map_cons, List.foldl_cons, Fl.minStep, if_neg (show ¬ Fl.lt (.fin y) (.fin a) from h), h1]
      · rcases h2 with rfl | h2 <;> simp_all
      · intro x hx
        rcases List.mem_cons.1 hx with rfl | hx
        · push Not at h; linarith
        · exact h4 x hx

theorem foldl_maxStep_fin : ∀ (t : List ℝ) (a : ℝ), ∃ b, (t.map Fl.fin).foldl Fl.maxStep (.fin a) = .fin b ∧ (b = a ∨ b ∈ t) ∧ a ≤ b ∧ ∀ x ∈ t, x ≤ b := by
  intro t
  induction t with
  | nil => intro a; exact ⟨a, rfl, .inl rfl, le_rfl, by simp⟩
  | cons y t ih =>
    intro a
    by_cases h : a < y
    · obtain ⟨b, h1, h2, h3, h4⟩ := ih y
      refine ⟨b, ?_, ?_, by linarith, ?_⟩
      · rw [List.map_cons, List.foldl_cons, Fl.maxStep, if_pos (show Fl.lt (.fin a) (.fin y) from h), h1]
      · rcases h2 with rfl | h2 <;> simp_all
      · intro x hx
        rcases List.mem_cons.1 hx with rfl | hx
        · exact h3
        · exact h4 x hx
    · obtain ⟨b, h1, h2, h3, h4⟩ := ih a
      refine ⟨b, ?_, ?_, h3, ?_⟩
      · rw [List.map_cons, List.foldl_cons, Fl.maxStep, if_neg (show ¬ Fl.lt (.fin a) (.fin y) from h), h1]
      · rcases h2 with rfl | h2 <;> simp_all
      · intro x hx
        rcases List.mem_cons.1 hx with rfl | hx
        · push Not at h; linarith
        · exact h4 x hx

theorem npMin_fin {xs : List ℝ} {a : Fl} (h : Fl.npMin (xs.map Fl.fin) = .ok a) : ∃ m, a = .fin m ∧ m ∈ xs ∧ ∀ x ∈ xs, m ≤ x := by
  unfold Fl.npMin at h
  rw [if_neg (by simp)] at h
  cases xs with
  | nil => cases h
  | cons y t =>
    obtain ⟨b, h1, h2, h3, h4⟩ := foldl_minStep_fin t y
    have : a = .fin b := by
      rw [← h1]
      simpa [Fl.pyMin, eq_comm] using h
    refine ⟨b, this, ?_, ?_⟩
    · rcases h2 with rfl | h2 <;> simp_all
    · intro x hx
      rcases List.mem_cons.1 hx with rfl | hx
      · exact h3
      · exact h4 x hx

theorem npMax_fin {xs : List ℝ} {a : Fl} (h : Fl.npMax (xs.map Fl.fin) = .ok a) : ∃ m, a = .fin m ∧ m ∈ xs ∧ ∀ x ∈ xs, x ≤ m := by
  unfold Fl.npMax at h
  rw [if_neg (by simp)] at h
  cases xs with
  | nil => cases h
  | cons y t =>
    obtain ⟨b, h1, h2, h3, h4⟩ := foldl_maxStep_fin t y
    have : a = .fin b := by
      rw [← h1]
      simpa [Fl.pyMax, eq_comm] using h
    refine ⟨b, this, ?_, ?_⟩
    · rcases h2 with rfl | h2 <;> simp_all
    · intro x hx
      rcases List.mem_cons.1 hx with rfl | hx
      · exact h3
      · exact h4 x hx

theorem sum_nan {l : List Fl} (h : Fl.nan ∈ l) : l.sum = .nan := by
  induction l with
  | nil => simp at h
  | cons a t ih =>
    rw [List.sum_cons]
    rcases List.mem_cons.1 h with rfl | h
    · simp
    · rw [ih h]; simp

theorem summary_np {ts : List Fl} {lo hi : Fl} (h1 : Fl.npMin ts = .ok lo) (h2 : Fl.npMax ts = .ok hi) : Summary ts lo (Fl.npMean ts) hi := by
  refine ⟨fun hn => ⟨?_, ?_, ?_⟩, ?_⟩
  · unfold Fl.npMin at h1
    rw [if_pos hn] at h1; cases h1; rfl
  · unfold Fl.npMean
    rw [sum_nan hn]; rfl
  · unfold Fl.npMax at h2
    rw [if_pos hn] at h2; cases h2; rfl
  · rintro xs rfl
    obtain ⟨a, rfl, ha, ha'⟩ := npMin_fin h1
    obtain ⟨b, rfl, hb, hb'⟩ := npMax_fin h2
    refine ⟨a, b, rfl, rfl, ?_, ha, hb, fun x hx => ⟨ha' x hx, hb' x hx⟩⟩
    have hl : (xs.length : ℝ) ≠ 0 := by
      have := List.length_pos_of_mem ha
      positivity
    unfold Fl.npMean
    rw [Fl.sum_map_fin, List.length_map]
    show Fl.quot _ _ = _
    rw [Fl.quot, if_neg hl]

/-- What a computed check adds to the tables. -/
theorem checkStats_auto {itime : List Ens → List Fl} {cfg : McConfig} {st st' : McState} {chains : List Ens} (h : checkStats itime cfg st chains = .ok st') :
    Fl.npMin ((itime chains).map (Fl.div (.fin ((chains.length : ℝ) * (((chains.getD 0 []).getD 0 []).getD 0 []).length)))) = .ok st'.minafactor ∧
    ∃ lo hi, Fl.npMin (itime chains) = .ok lo ∧ Fl.npMax (itime chains) = .ok hi ∧
      st'.autosamples = (if st.burnComplete then st.autosamples ++ [chains.length * (((chains.getD 0 []).getD 0 []).getD 0 []).length] else st.autosamples) ∧
      st'.automin = (if st.burnComplete then st.automin ++ [lo] else st.automin) ∧
      st'.automean = (if st.burnComplete then st.automean ++ [Fl.npMean (itime chains)] else st.automean) ∧
      st'.automax = (if st.burnComplete then st.automax ++ [hi] else st.automax) := by
  unfold checkStats at h
  rcases h0 : convergenceCalculate itime chains st.oac cfg.th with e | out
  · rw [h0] at h; cases h
  rw [h0] at h
  obtain ⟨_, _, a, b, c, d, ha, hb, hc, hd, _⟩ := conv_raw h0
  simp only [bind, Except.bind] at h
  rw [ha, hb, hc, hd] at h
  simp only at h
  rcases he : Fl.npMin out.autocorrelation with e | oacMin
  · rw [he] at h; cases h
  rcases hf : Fl.npMax out.autocorrelation with e | oacMax
  · rw [he, hf] at h; cases h
  rw [he, hf] at h
  simp only [pure, Except.pure] at h
  cases h
  have hac : out.autocorrelation = itime chains ∧ out.afactor = (itime chains).map (Fl.div (.fin ((chains.length : ℝ) * (((chains.getD 0 []).getD 0 []).getD 0 []).length))) := by
    unfold convergenceCalculate at h0
    rcases chains with _ | ⟨e0, t⟩
    · cases h0
    · simp only at h0
      split at h0
      · cases h0
      · simp only [bind, Except.bind] at h0
        rcases g1 : Fl.pyMin (tzOf ((e0.getD 0 []).flatten.length : ℝ) ((e0 :: t).length : ℝ) ((List.range e0.length).map (parChains (e0 :: t)))) with e | x1
        · rw [g1] at h0; cases h0
        rw [g1] at h0; simp only at h0
        split at h0
        · cases h0
        split at h0
        · cases h0
        split at h0
        · cases h0
        cases h0
        exact ⟨rfl, rfl⟩
  rw [hac.2] at hc
  rw [hac.1] at he hf
  by_cases hbc : st.burnComplete = true
  · simp only [hbc, if_true, hac.1]
    refine ⟨hc, oacMin, oacMax, he, hf, ?_, ?_, ?_, ?_⟩ <;> trivial
  · rw [Bool.not_eq_true] at hbc
    simp only [hbc, Bool.false_eq_true, if_false]
    refine ⟨hc, oacMin, oacMax, he, hf, ?_, ?_, ?_, ?_⟩ <;> trivial

/-- What one round adds to the tables. -/
theorem round_auto {itime : List Ens → List Fl} {moves : Nat → Nat → Pos → Move} {cfg : McConfig} {st st' : McState} (h : mcmcRound itime moves cfg st = .ok st') :
    ∃ chains ln k, st'.table = some (chains, ln) ∧ st'.trace = st.trace ++ [k] ∧ k.post = st.burnComplete ∧
      chains = (blocks cfg.checkinterval moves st.started 0 st.samplers st.inits).map (chainT cfg.ndim cfg.nwalkers) ∧ st'.checked = blocks cfg.checkinterval moves st.started 0 st.samplers st.inits ∧
      (k.computed = false ∧ st'.autosamples = st.autosamples ∧ st'.automin = st.automin ∧ st'.automean = st.automean ∧ st'.automax = st.automax ∨
       k.computed = true ∧ Fl.npMin ((itime chains).map (Fl.div (.fin ((chains.length : ℝ) * (((chains.getD 0 []).getD 0 []).getD 0 []).length)))) = .ok st'.minafactor ∧
       ∃ lo hi, Fl.npMin (itime chains) = .ok lo ∧ Fl.npMax (itime chains) = .ok hi ∧
        st'.autosamples = (if st.burnComplete then st.autosamples ++ [chains.length * (((chains.getD 0 []).getD 0 []).getD 0 []).length] else st.autosamples) ∧
        st'.automin = (if st.burnComplete then st.automin ++ [lo] else st.automin) ∧
        st'.automean = (if st.burnComplete then st.automean ++ [Fl.npMean (itime chains)] else st.automean) ∧
        st'.automax = (if st.burnComplete then st.automax ++ [hi] else st.automax)) := by
  obtain ⟨stc, hc, rfl⟩ := mcmcRound_spec h
  have hb : ∀ s : McState, (burnStep cfg s).table = s.table ∧ (burnStep cfg s).trace = s.trace ∧ (burnStep cfg s).autosamples = s.autosamples ∧ (burnStep cfg s).automin = s.automin ∧
      (burnStep cfg s).automean = s.automean ∧ (burnStep cfg s).automax = s.automax ∧ (burnStep cfg s).minafactor = s.minafactor ∧ (burnStep cfg s).checked = s.checked := by
    intro s; unfold burnStep; split <;> exact ⟨rfl, rfl, rfl, rfl, rfl, rfl, rfl, rfl⟩
  obtain ⟨b1, b2, b3, b4, b5, b6, b7, b8⟩ := hb { stc with file := stc.file.map (saveAll stc 0 stc.samplers) }
  rw [b1, b2, b3, b4, b5, b6, b7, b8]
  simp only
  have hcc := convergenceCheck_spec hc
  unfold convergenceCheck at hc
  simp only at hc
  split at hc
  · cases hc
  · rcases hl : (afterBlocks cfg moves st).samplers.getLast? with _ | last
    · rw [hl] at hc; cases hc
    · rw [hl] at hc
      simp only at hc
      split at hc
      · cases hc
        exact ⟨_, _, _, rfl, rfl, rfl, rfl, rfl, .inl ⟨rfl, rfl, rfl, rfl, rfl⟩⟩
      · obtain ⟨fr, h1, h2, h3, out, maxgr, h4, h5, h6, h7, h8, h9, h10⟩ := checkStats_spec hc
        obtain ⟨g1, lo, hi, g2, g3, g4, g5, g6, g7⟩ := checkStats_auto hc
        exact ⟨_, _, _, h1, h10, rfl, rfl, h2, .inr ⟨rfl, g1, lo, hi, g2, g3, g4, g5, g6, g7⟩⟩

/-- All samplers have stored `k` steps. -/
def AllSteps (k : Nat) (ss : List Sampler) : Prop := ∀ s ∈ ss, s.chain.length = k

/-- The table so far: columns of the same length, steps increasing and at most those stored (`ss`); without rows during burn-in. -/
structure AutoInv (cfg : McConfig) (st : McState) (ss : List Sampler) (post : Bool) : Prop where
  cols : st.automin.length = st.autosamples.length ∧ st.automean.length = st.autosamples.length ∧ st.automax.length = st.autosamples.length
  sorted : st.autosamples.Pairwise (· < ·)
  burn : post = false → st.autosamples = []
  steps : ∃ k, AllSteps k ss ∧ ∀ n ∈ st.autosamples, n ≤ cfg.ensembles * k
  len : ss.length = cfg.ensembles

theorem chainT_steps {nd nw : Nat} (hnd : 0 < nd) (hnw : 0 < nw) (s : Sampler) : (((chainT nd nw s).getD 0 []).getD 0 []).length = s.chain.length := by
  obtain ⟨nd, rfl⟩ : ∃ m, nd = m + 1 := ⟨nd - 1, by omega⟩
  obtain ⟨nw, rfl⟩ : ∃ m, nw = m + 1 := ⟨nw - 1, by omega⟩
  unfold chainT
  simp [List.range_succ_eq_map]

theorem AutoInv.round {itime : List Ens → List Fl} {moves : Nat → Nat → Pos → Move} {cfg : McConfig} (hnd : 0 < cfg.ndim) (hnw : 0 < cfg.nwalkers) (hens : 0 < cfg.ensembles) (hci : 1 ≤ cfg.checkinterval)
    {st st' : McState} (hI : AutoInv cfg st st.samplers st.burnComplete) (h : mcmcRound itime moves cfg st = .ok st') :
    AutoInv cfg st' st'.samplers st'.burnComplete ∧ ∃ k, st'.trace.getLast? = some k ∧ AutoInv cfg st' st'.checked k.post := by
  obtain ⟨chains, ln, k, h1, h2, h3, h4, h5, h6⟩ := round_auto h
  obtain ⟨m, hm, hle⟩ := hI.steps
  have hsteps : AllSteps (m + cfg.checkinterval) st'.checked := by
    intro s hs
    rw [h5] at hs
    obtain ⟨s0, hs0, j, b, init, rfl⟩ := blocks_mem _ _ _ _ _ _ _ hs
    rw [(block_length cfg.checkinterval hci (moves j) b s0 init).1, hm s0 hs0]
  have hlen : st'.checked.length = cfg.ensembles := by rw [h5, blocks_length, hI.len]
  have hN : chains.length * (((chains.getD 0 []).getD 0 []).getD 0 []).length = cfg.ensembles * (m + cfg.checkinterval) := by
    rw [h4, ← h5, List.length_map, hlen]
    congr 1
    have h0 : 0 < st'.checked.length := by omega
    have : (st'.checked.map (chainT cfg.ndim cfg.nwalkers)).getD 0 [] = chainT cfg.ndim cfg.nwalkers st'.checked[0] := by
      rw [List.getD_eq_getElem?_getD, List.getElem?_map, List.getElem?_eq_getElem h0]
      rfl
    rw [this, chainT_steps hnd hnw]
    exact hsteps _ (List.getElem_mem h0)
  have hlt : ∀ n ∈ st.autosamples, n < cfg.ensembles * (m + cfg.checkinterval) := by
    intro n hn
    have := hle n hn
    have : cfg.ensembles * m < cfg.ensembles * (m + cfg.checkinterval) := Nat.mul_lt_mul_of_pos_left (by omega) hens
    omega
  have hchk : AutoInv cfg st' st'.checked k.post := by
    obtain ⟨c1, c2, c3⟩ := hI.cols
    rcases h6 with ⟨_, g1, g2, g3, g4⟩ | ⟨_, _, lo, hi, _, _, g1, g2, g3, g4⟩
    · refine ⟨by rw [g1, g2, g3, g4]; exact ⟨c1, c2, c3⟩, by rw [g1]; exact hI.sorted, by rw [g1, h3]; exact hI.burn, ⟨_, hsteps, ?_⟩, hlen⟩
      rw [g1]
      exact fun n hn => (hlt n hn).le
    · cases hbc : st.burnComplete with
      | false =>
        rw [hbc] at g1 g2 g3 g4
        simp only [Bool.false_eq_true, if_false] at g1 g2 g3 g4
        refine ⟨by rw [g1, g2, g3, g4]; exact ⟨c1, c2, c3⟩, by rw [g1]; exact hI.sorted, by rw [g1, h3]; exact hI.burn, ⟨_, hsteps, ?_⟩, hlen⟩
        rw [g1]
        exact fun n hn => (hlt n hn).le
      | true =>
        rw [hbc] at g1 g2 g3 g4
        simp only [if_true] at g1 g2 g3 g4
        refine ⟨by rw [g1, g2, g3, g4]; simp [c1, c2, c3], ?_, by rw [h3, hbc]; simp, ⟨_, hsteps, ?_⟩, hlen⟩
        · rw [g1, hN, List.pairwise_append]
          exact ⟨hI.sorted, by simp, by simpa using hlt⟩
        · rw [g1, hN]
          intro n hn
          rcases List.mem_append.1 hn with hn | hn
          · exact (hlt n hn).le
          · simp at hn; omega
  refine ⟨?_, k, by rw [h2]; simp, hchk⟩
  obtain ⟨stc, hc, rfl⟩ := mcmcRound_spec h
  obtain ⟨fr, _, hk, _⟩ := convergenceCheck_spec hc
  have e1 : stc.burnComplete = st.burnComplete := fr.burnComplete
  have e2 : stc.checked = stc.samplers := by rw [hk, fr.samplers]
  rw [h3] at hchk
  clear h1 h2 h3 h4 h5 h6 hN hsteps hlen
  revert hchk
  unfold burnStep
  split
  · rename_i hb
    intro hchk
    have hb1 : st.burnComplete = false := by rw [← e1]; exact hb.1
    refine ⟨hchk.cols, hchk.sorted, by simp, ⟨0, ?_, ?_⟩, ?_⟩
    · intro s hs
      obtain ⟨s0, _, rfl⟩ := List.mem_map.1 hs
      rfl
    · have := hchk.burn hb1
      simp only at this ⊢
      rw [this]; simp
    · have := hchk.len
      simp only at this ⊢
      rw [List.length_map, ← e2]; exact this
  · intro hchk
    obtain ⟨a1, a2, a3, a4, a5⟩ := hchk
    simp only at a1 a2 a3 a4 a5 ⊢
    rw [e2] at a4 a5
    exact ⟨a1, a2, by rw [e1]; exact a3, a4, a5⟩

theorem AutoInv.fresh {cfg : McConfig} {p0 : List Pos} (hp : p0.length = cfg.ensembles) (file : Option H5) (prev : Option (List Ens × List (List (List Fl)))) :
    let st := startFresh p0 cfg.nwalkers file prev
    AutoInv cfg st st.samplers st.burnComplete := by
  refine ⟨⟨rfl, rfl, rfl⟩, List.Pairwise.nil, fun _ => rfl, ⟨0, ?_, by simp [startFresh]⟩, by simp [startFresh, hp]⟩
  intro s hs
  obtain ⟨_, _, rfl⟩ := List.mem_map.1 hs
  rfl

theorem AutoInv.loop {itime : List Ens → List Fl} {moves : Nat → Nat → Pos → Move} {cfg : McConfig} (hnd : 0 < cfg.ndim) (hnw : 0 < cfg.nwalkers) (hens : 0 < cfg.ensembles) (hci : 1 ≤ cfg.checkinterval) :
    ∀ (n : Nat) {st st' : McState} {b : Bool}, AutoInv cfg st st.samplers st.burnComplete → mcmcLoop itime moves cfg (n + 1) st = .ok (st', b) →
      AutoInv cfg st' st'.samplers st'.burnComplete ∧ ∃ k, st'.trace.getLast? = some k ∧ AutoInv cfg st' st'.checked k.post := by
  intro n
  induction n with
  | zero =>
    intro st st' b hI h
    unfold mcmcLoop at h
    rcases hr : mcmcRound itime moves cfg st with e | st1
    · rw [hr] at h; cases h
    · rw [hr] at h
      simp only at h
      have := hI.round hnd hnw hens hci hr
      split at h
      · cases h; exact this
      · unfold mcmcLoop at h; cases h; exact this
  | succ n ih =>
    intro st st' b hI h
    unfold mcmcLoop at h
    rcases hr : mcmcRound itime moves cfg st with e | st1
    · rw [hr] at h; cases h
    · rw [hr] at h
      simp only at h
      have h1 := hI.round hnd hnw hens hci hr
      split at h
      · cases h; exact h1
      · exact ih h1.1 h

theorem Session.auto {cfg : McConfig} {st : McState} (h : Session cfg st) (hnd : 0 < cfg.ndim) :
    AutoInv cfg st st.samplers st.burnComplete ∧ ∃ k, st.trace.getLast? = some k ∧ AutoInv cfg st st.checked k.post := by
  induction h with
  | @fresh itime moves cfg p0 prev n st b hens hnw hci hm hp hl => exact AutoInv.loop hnd hnw hens hci n (AutoInv.fresh hp _ _) hl
  | @proceed cfg0 st0 F itime moves cfg prev st1 n st b h0 hF hci hm hst hl ih =>
    obtain ⟨hens, hnw, hI, hR⟩ := h0.inv
    obtain ⟨c, F', hF', hS, _, hpb⟩ := hR.saved
    rw [hF] at hF'; cases hF'
    rw [hR.start hS hens hnw] at hst
    split at hst
    · cases hst
    · rename_i hn
      push Not at hn
      have e1 : cfg.ensembles = cfg0.ensembles := by have := hn.1; omega
      have e2 : cfg.ndim = cfg0.ndim := hn.2.1.symm
      have e3 : cfg.nwalkers = cfg0.nwalkers := hn.2.2.symm
      obtain ⟨_, k, hk, a1, a2, a3, ⟨m, a4, a5⟩, a6⟩ := ih (by omega)
      rw [hS.last] at hk; cases hk
      refine AutoInv.loop hnd (by omega) (by omega) hci n ?_ hl
      cases hst
      refine ⟨a1, a2, ?_, ⟨m, ?_, ?_⟩, by simp [a6, e1]⟩
      · intro hb
        simp only [decide_eq_false_iff_not, not_not] at hb
        refine a3 ?_
        by_contra hc
        rw [Bool.not_eq_false] at hc
        rw [hc, if_pos rfl] at hb
        exact (hI.burned.1 (hpb hc)) hb
      · intro s hs
        obtain ⟨s', hs', rfl⟩ := List.mem_map.1 hs
        exact a4 s' hs'
      · rw [e1]; exact a5

end Radvel
