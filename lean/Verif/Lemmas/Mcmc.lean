import Verif.Model.Mcmc
import Verif.Props.Convergence

/-! One round of the MCMC loop. -/

namespace Radvel
open Classical

/-- The fields a check does not touch. -/
structure CheckFrame (st st' : McState) : Prop where
  samplers : st'.samplers = st.samplers
  inits : st'.inits = st.inits
  started : st'.started = st.started
  burnComplete : st'.burnComplete = st.burnComplete
  nburn : st'.nburn = st.nburn
  file : st'.file = st.file

theorem checkStats_spec {itime : List Ens → List Fl} {cfg : McConfig} {st st' : McState} {chains : List Ens} (h : checkStats itime cfg st chains = .ok st') :
    CheckFrame st st' ∧ st'.table = st.table ∧ st'.checked = st.checked ∧ st'.ncomplete = st.ncomplete ∧ ∃ out maxgr, convergenceCalculate itime chains st.oac cfg.th = .ok out ∧
      Fl.pyMax out.gelmanrubin = .ok maxgr ∧ st'.maxgr = maxgr ∧ st'.oac = some out.autocorrelation ∧ st'.ismixed = out.ismixed ∧
      st'.mixcount = (if out.ismixed then st.mixcount + 1 else 0) ∧ st'.trace = st.trace ++ [⟨true, out.ismixed, st.burnComplete⟩] := by
  unfold checkStats at h
  rcases h0 : convergenceCalculate itime chains st.oac cfg.th with e | out
  · rw [h0] at h; cases h
  rw [h0] at h
  obtain ⟨_, _, a, b, c, d, ha, hb, hc, hd, _⟩ := conv_raw h0
  simp only [bind, Except.bind] at h
  rw [ha, hb, hc, hd] at h
  simp only at h
  rcases he : Fl.npMin out.autocorrelation with e | oacMin
  · rw [he] at h; cases h
  rcases hf : Fl.npMax out.autocorrelation with e | oacMax
  · rw [he, hf] at h; cases h
  rw [he, hf] at h
  simp only [pure, Except.pure] at h
  cases h
  by_cases hbc : st.burnComplete = true
  · simp only [hbc, if_true]
    exact ⟨⟨rfl, rfl, rfl, hbc.symm, rfl, rfl⟩, trivial, trivial, trivial, out, b, rfl, hb, rfl, rfl, rfl, rfl, rfl⟩
  · rw [Bool.not_eq_true] at hbc
    simp only [hbc, Bool.false_eq_true, if_false]
    exact ⟨⟨rfl, rfl, rfl, hbc.symm, rfl, rfl⟩, trivial, trivial, trivial, out, b, rfl, hb, rfl, rfl, rfl, rfl, rfl⟩

theorem convergenceCheck_spec {itime : List Ens → List Fl} {cfg : McConfig} {st st' : McState} (h : convergenceCheck itime cfg st = .ok st') :
    CheckFrame st st' ∧ st'.table = some (st.samplers.map (chainT cfg.ndim cfg.nwalkers), st.samplers.map (logProbT cfg.nwalkers)) ∧ st'.checked = st.samplers ∧
      st.samplers ≠ [] ∧ st'.ncomplete = st.nburn + (st.samplers.map fun s => s.chain.length * cfg.nwalkers).sum ∧
      ((st'.mixcount = st.mixcount ∧ st'.oac = st.oac ∧ st'.trace = st.trace ++ [⟨false, false, st.burnComplete⟩]) ∨
       ∃ out maxgr, convergenceCalculate itime (st.samplers.map (chainT cfg.ndim cfg.nwalkers)) st.oac cfg.th = .ok out ∧ Fl.pyMax out.gelmanrubin = .ok maxgr ∧ st'.maxgr = maxgr ∧
         st'.oac = some out.autocorrelation ∧ st'.mixcount = (if out.ismixed then st.mixcount + 1 else 0) ∧ st'.trace = st.trace ++ [⟨true, out.ismixed, st.burnComplete⟩]) := by
  unfold convergenceCheck at h
  simp only at h
  split at h
  · cases h
  · rcases hl : st.samplers.getLast? with _ | last
    · rw [hl] at h; cases h
    · have hne : st.samplers ≠ [] := by intro h0; rw [h0] at hl; cases hl
      rw [hl] at h
      simp only at h
      split at h
      · cases h
        exact ⟨⟨rfl, rfl, rfl, rfl, rfl, rfl⟩, rfl, rfl, hne, rfl, .inl ⟨rfl, rfl, rfl⟩⟩
      · obtain ⟨fr, h1, h2, h3, out, maxgr, h4, h5, h6, h7, h8, h9, h10⟩ := checkStats_spec h
        exact ⟨⟨fr.samplers, fr.inits, fr.started, fr.burnComplete, fr.nburn, fr.file⟩, h1, h2, hne, h3, .inr ⟨out, maxgr, h4, h5, h6, h7, h9, h10⟩⟩

theorem burnStep_fields (cfg : McConfig) (st : McState) : (burnStep cfg st).mixcount = st.mixcount ∧ (burnStep cfg st).trace = st.trace ∧ (burnStep cfg st).oac = st.oac ∧
    (burnStep cfg st).table = st.table ∧ (burnStep cfg st).checked = st.checked ∧ (burnStep cfg st).file = st.file ∧ (burnStep cfg st).started = st.started ∧
    (st.burnComplete = true → (burnStep cfg st).burnComplete = true) ∧ (st.maxgr.leq cfg.burnGR → (burnStep cfg st).burnComplete = true) := by
  unfold burnStep
  split
  · exact ⟨rfl, rfl, rfl, rfl, rfl, rfl, rfl, fun _ => rfl, fun _ => rfl⟩
  · rename_i hn
    refine ⟨rfl, rfl, rfl, rfl, rfl, rfl, rfl, fun h => h, fun h => ?_⟩
    by_contra h0
    rw [Bool.not_eq_true] at h0
    exact hn ⟨h0, .inl h⟩

/-- The state when the check of a round begins. -/
def afterBlocks (cfg : McConfig) (moves : Nat → Nat → Pos → Move) (st : McState) : McState :=
  { st with samplers := blocks cfg.checkinterval moves st.started 0 st.samplers st.inits, started := true }

theorem mcmcRound_spec {itime : List Ens → List Fl} {moves : Nat → Nat → Pos → Move} {cfg : McConfig} {st st' : McState} (h : mcmcRound itime moves cfg st = .ok st') :
    ∃ stc, convergenceCheck itime cfg (afterBlocks cfg moves st) = .ok stc ∧ st' = burnStep cfg { stc with file := stc.file.map (saveAll stc 0 stc.samplers) } := by
  unfold mcmcRound at h
  change (convergenceCheck itime cfg (afterBlocks cfg moves st) >>= _) = _ at h
  rcases hc : convergenceCheck itime cfg (afterBlocks cfg moves st) with e | stc
  · rw [hc] at h
    cases h
  · rw [hc] at h
    cases h
    exact ⟨stc, rfl, rfl⟩

/-- Invariants of the main loop, by induction over the rounds. -/
theorem mcmcLoop_invariant (I : McState → Prop) {itime : List Ens → List Fl} {moves : Nat → Nat → Pos → Move} {cfg : McConfig}
    (hstep : ∀ st st', I st → mcmcRound itime moves cfg st = .ok st' → I st') :
    ∀ (n : Nat) (st st' : McState) (b : Bool), I st → mcmcLoop itime moves cfg n st = .ok (st', b) → I st' := by
  intro n
  induction n with
  | zero => intro st st' b hI h; cases h; exact hI
  | succ n ih =>
    intro st st' b hI h
    unfold mcmcLoop at h
    rcases hr : mcmcRound itime moves cfg st with e | st1
    · rw [hr] at h; cases h
    · rw [hr] at h
      simp only at h
      have h1 := hstep st st1 hI hr
      split at h
      · cases h; exact h1
      · exact ih st1 st' b h1 h

theorem mcmcLoop_break {itime : List Ens → List Fl} {moves : Nat → Nat → Pos → Move} {cfg : McConfig} :
    ∀ (n : Nat) (st st' : McState), mcmcLoop itime moves cfg n st = .ok (st', true) → 2 ≤ st'.mixcount := by
  intro n
  induction n with
  | zero => intro st st' h; cases h
  | succ n ih =>
    intro st st' h
    unfold mcmcLoop at h
    rcases hr : mcmcRound itime moves cfg st with e | st1
    · rw [hr] at h; cases h
    · rw [hr] at h
      simp only at h
      split at h
      · cases h; assumption
      · exact ih st1 st' h

theorem mcmcRun_spec {itime : List Ens → List Fl} {moves : Nat → Nat → Pos → Move} {cfg : McConfig} {st st' : McState} {f : ChainFrame} {b : Bool}
    (h : mcmcRun itime moves cfg st = .ok (f, st', b)) : ∃ n, numRun cfg.nrun cfg.checkinterval = .ok n ∧ mcmcLoop itime moves cfg n st = .ok (st', b) ∧ finish cfg st' = .ok f := by
  unfold mcmcRun at h
  rcases hn : numRun cfg.nrun cfg.checkinterval with e | n
  · rw [hn] at h; cases h
  rcases hl : mcmcLoop itime moves cfg n st with e | r
  · rw [hn] at h; simp only [bind, Except.bind] at h; rw [hl] at h; cases h
  rcases hf : finish cfg r.1 with e | f'
  · rw [hn] at h; simp only [bind, Except.bind] at h; rw [hl] at h; simp only at h; rw [hf] at h; cases h
  rw [hn] at h; simp only [bind, Except.bind] at h; rw [hl] at h; simp only at h; rw [hf] at h
  cases h
  exact ⟨n, rfl, hl, hf⟩

theorem Fl.lt_leq {a b c : Fl} (h : a.lt b) (h' : b.leq c) : a.leq c := by
  cases a <;> cases b <;> cases c <;> simp_all [Fl.lt, Fl.leq] <;> linarith

end Radvel
