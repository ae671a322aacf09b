import Verif.Spec.Progress
import Verif.Lemmas.Crit
import Verif.Props.Mcmc

/-! Lemmas for C158: the bar, and the number of steps counted. -/

namespace Radvel

theorem halfEven_le {a b c : Nat} (hb : 0 < b) (h : a ≤ c * b) : halfEven a b ≤ c := by
  have h1 : a / b ≤ c := by
    rw [Nat.div_le_iff_le_mul_add_pred hb]; nlinarith
  unfold halfEven
  by_cases he : a / b = c
  · have hm : a % b = 0 := by
      have := Nat.div_add_mod a b
      rw [he] at this
      have e : b * c = c * b := Nat.mul_comm _ _
      omega
    rw [hm, if_pos (by omega), he]
  · split_ifs <;> omega

theorem halfEven_mono {a a' b : Nat} (h : a ≤ a') : halfEven a b ≤ halfEven a' b := by
  have hq : a / b ≤ a' / b := Nat.div_le_div_right h
  have h1 := Nat.div_add_mod a b
  have h2 := Nat.div_add_mod a' b
  have up : halfEven a b ≤ a / b + 1 := by unfold halfEven; split_ifs <;> omega
  have low : a' / b ≤ halfEven a' b := by unfold halfEven; split_ifs <;> omega
  by_cases he : a / b = a' / b
  · have hr : a % b ≤ a' % b := by rw [he] at h1; omega
    unfold halfEven
    rw [he]
    split_ifs <;> omega
  · omega

theorem sum_blocks {ci : Nat} (hci : 1 ≤ ci) (moves : Nat → Nat → Pos → Move) (nw : Nat) : ∀ (started : Bool) (i : Nat) (ss : List Sampler) (inits : List Pos),
    ((blocks ci moves started i ss inits).map fun s => s.chain.length * nw).sum = (ss.map fun s => s.chain.length * nw).sum + ss.length * (ci * nw) := by
  intro started i ss
  induction ss generalizing started i with
  | nil => intro inits; simp [blocks]
  | cons s ss ih =>
    intro inits
    simp only [blocks, List.map_cons, List.sum_cons, List.length_cons, ih, (block_length ci hci _ _ _ _).1]
    ring

/-- All the steps that the state knows of. -/
def McState.known (cfg : McConfig) (st : McState) : Nat := st.nburn + (st.samplers.map fun s => s.chain.length * cfg.nwalkers).sum

theorem round_known {itime : List Ens → List Fl} {moves : Nat → Nat → Pos → Move} {cfg : McConfig} (hci : 1 ≤ cfg.checkinterval) {st st' : McState} (h : mcmcRound itime moves cfg st = .ok st') :
    st'.known cfg = st.known cfg + st.samplers.length * (cfg.checkinterval * cfg.nwalkers) ∧ st'.ncomplete = st'.known cfg ∧ st'.samplers.length = st.samplers.length := by
  obtain ⟨stc, hc, rfl⟩ := mcmcRound_spec h
  obtain ⟨fr, _, _, _, hn, _⟩ := convergenceCheck_spec hc
  have hs : stc.samplers = blocks cfg.checkinterval moves st.started 0 st.samplers st.inits := fr.samplers
  have hb : stc.nburn = st.nburn := fr.nburn
  have hk : stc.ncomplete = st.known cfg + st.samplers.length * (cfg.checkinterval * cfg.nwalkers) := by
    rw [hn]
    unfold afterBlocks McState.known
    simp only
    rw [sum_blocks hci]
    omega
  have hlen : stc.samplers.length = st.samplers.length := by rw [hs, blocks_length]
  have hkc : stc.known cfg = stc.ncomplete := by
    rw [hn]
    unfold McState.known afterBlocks
    rw [hs, hb]
  unfold burnStep
  split_ifs
  · refine ⟨?_, ?_, ?_⟩
    · rw [← hk]
      unfold McState.known
      simp [Sampler.reset, Function.comp_def]
    · unfold McState.known
      simp [Sampler.reset, Function.comp_def]
    · simpa using hlen
  · exact ⟨hkc.trans hk, hkc.symm, hlen⟩

theorem rounds_known {itime : List Ens → List Fl} {moves : Nat → Nat → Pos → Move} {cfg : McConfig} (hci : 1 ≤ cfg.checkinterval) {st0 st : McState} {r : Nat} (h : Rounds itime moves cfg st0 r st) :
    st.known cfg = st0.known cfg + r * (st0.samplers.length * (cfg.checkinterval * cfg.nwalkers)) ∧ (1 ≤ r → st.ncomplete = st.known cfg) ∧ st.samplers.length = st0.samplers.length := by
  induction h with
  | zero => simp
  | succ r st st' _ hr ih =>
    obtain ⟨h1, h2, h3⟩ := round_known hci hr
    obtain ⟨i1, _, i3⟩ := ih
    refine ⟨?_, fun _ => h2, h3.trans i3⟩
    rw [h1, i1, i3]
    ring

/-- A round before the criteria are computed. -/
theorem round_early (itime : List Ens → List Fl) (moves : Nat → Nat → Pos → Move) (cfg : McConfig) (hci : 1 ≤ cfg.checkinterval) (st : McState) (s : Sampler) (hs : st.samplers = [s])
    (ht : 0 < cfg.nrun * cfg.nwalkers * cfg.ensembles)
    (hp : ((st.nburn + (s.chain.length + cfg.checkinterval) * cfg.nwalkers : Nat) : ℝ) / ((cfg.nrun * cfg.nwalkers * cfg.ensembles : Nat) : ℝ) * 100 < cfg.minpercent)
    (hm : (((s.chain.length + cfg.checkinterval) * cfg.nwalkers : Nat) : ℝ) ≤ cfg.minsteps * cfg.nwalkers) : ∃ st', mcmcRound itime moves cfg st = .ok st' := by
  unfold mcmcRound convergenceCheck
  have hl := (block_length cfg.checkinterval hci (moves 0) st.started s (st.inits.headD [])).1
  simp only [hs, blocks, List.map_cons, List.map_nil, List.sum_cons, List.sum_nil, List.getLast?_singleton, hl, Nat.add_zero]
  rw [if_neg (by omega), if_pos ⟨hp, hm⟩]
  exact ⟨_, rfl⟩

end Radvel
