import Verif.Lemmas.ChainTable
import Verif.Lemmas.Dict

/-! What `save` writes. -/

namespace Radvel
open Classical

theorem keys_set_range {ν : Type} (d : Dict Nat ν) (m i : Nat) (v : ν) (h : d.keys = List.range m) (hi : i ≤ m) : (d.set i v).keys = List.range (max m (i + 1)) := by
  rcases Nat.lt_or_ge i m with h1 | h1
  · rw [Dict.keys_set_of_mem d v (by rw [h]; exact List.mem_range.2 h1), h, max_eq_left (by omega)]
  · rw [Dict.keys_set_of_not_mem d v (by rw [h, List.mem_range]; omega), h, max_eq_right (by omega), List.range_succ, show i = m by omega]

/-- The contents of the file after saving. -/
structure FileOf (m : Nat) (f : H5) : Prop where
  chain : f.chain.keys = List.range m
  logProb : f.logProb.keys = List.range m
  accepted : f.accepted.keys = List.range m

theorem saveAll_spec (st : McState) : ∀ (ss : List Sampler) (i m : Nat) (f : H5), FileOf m f → i ≤ m →
    FileOf (max m (i + ss.length)) (saveAll st i ss f) ∧
    (∀ (j : Nat) s, ss[j]? = some s → (saveAll st i ss f).chain.get? (i + j) = some s.chain ∧ (saveAll st i ss f).logProb.get? (i + j) = some s.logProb ∧
      (saveAll st i ss f).accepted.get? (i + j) = some s.accepted) ∧
    (∀ j, j < i → (saveAll st i ss f).chain.get? j = f.chain.get? j ∧ (saveAll st i ss f).logProb.get? j = f.logProb.get? j ∧ (saveAll st i ss f).accepted.get? j = f.accepted.get? j) ∧
    (ss ≠ [] → (saveAll st i ss f).crit = some (st.minafactor, st.maxarchange, st.mintz, st.maxgr) ∧ (saveAll st i ss f).autosample = some st.autosamples ∧ (saveAll st i ss f).automin = some st.automin ∧
      (saveAll st i ss f).automean = some st.automean ∧ (saveAll st i ss f).automax = some st.automax ∧
      (saveAll st i ss f).burned = some (if st.burnComplete then st.nburn else 0)) := by
  intro ss
  induction ss with
  | nil =>
    intro i m f hf hi
    refine ⟨?_, by simp, fun j _ => ⟨rfl, rfl, rfl⟩, fun h => absurd rfl h⟩
    rw [List.length_nil, Nat.add_zero, max_eq_left hi]; exact hf
  | cons a ss ih =>
    intro i m f hf hi
    have hf' : FileOf (max m (i + 1)) (saveOne st f i a) :=
      ⟨keys_set_range _ _ _ _ hf.chain hi, keys_set_range _ _ _ _ hf.logProb hi, keys_set_range _ _ _ _ hf.accepted hi⟩
    obtain ⟨h1, h2, h3, h4⟩ := ih (i + 1) (max m (i + 1)) (saveOne st f i a) hf' (le_max_right _ _)
    have hkeep := h3 i (by omega)
    unfold saveAll
    refine ⟨?_, ?_, ?_, ?_⟩
    · rw [show max m (i + (a :: ss).length) = max (max m (i + 1)) (i + 1 + ss.length) by simp only [List.length_cons]; omega]
      exact h1
    · intro j s hs
      cases j with
      | zero =>
        simp at hs; subst hs
        show (saveAll st (i + 1) ss (saveOne st f i a)).chain.get? i = _ ∧ (saveAll st (i + 1) ss (saveOne st f i a)).logProb.get? i = _ ∧
          (saveAll st (i + 1) ss (saveOne st f i a)).accepted.get? i = _
        rw [hkeep.1, hkeep.2.1, hkeep.2.2]
        simp [saveOne, Dict.get?_set]
      | succ j =>
        rw [List.getElem?_cons_succ] at hs
        rw [show i + (j + 1) = i + 1 + j by omega]
        exact h2 j s hs
    · intro j hj
      obtain ⟨k1, k2, k3⟩ := h3 j (by omega)
      rw [k1, k2, k3]
      have hne : i ≠ j := by omega
      simp [saveOne, Dict.get?_set, hne]
    · intro _
      cases ss with
      | nil => exact ⟨rfl, rfl, rfl, rfl, rfl, rfl⟩
      | cons b ss => exact h4 (by simp)

/-- The file holds what the last check saw. -/
structure Saved (cfg : McConfig) (m : Nat) (st : McState) (c : Check) (f : H5) : Prop where
  last : st.trace.getLast? = some c
  file : FileOf m f
  got : ∀ (j : Nat) s, st.checked[j]? = some s → f.chain.get? j = some s.chain ∧ f.logProb.get? j = some s.logProb ∧ f.accepted.get? j = some s.accepted
  crit : f.crit = some (st.minafactor, st.maxarchange, st.mintz, st.maxgr)
  autosample : f.autosample = some st.autosamples
  automin : f.automin = some st.automin
  automean : f.automean = some st.automean
  automax : f.automax = some st.automax
  burned : f.burned = some (if c.post then st.nburn else 0)

theorem round_saved {itime : List Ens → List Fl} {moves : Nat → Nat → Pos → Move} {cfg : McConfig} (hens : 0 < cfg.ensembles) {st st' : McState} (hlen : st.samplers.length = cfg.ensembles)
    {m : Nat} {f : H5} (hfile : st.file = some f) (hf : FileOf m f) (h : mcmcRound itime moves cfg st = .ok st') :
    st'.samplers.length = cfg.ensembles ∧ ∃ c f', st'.file = some f' ∧ Saved cfg (max m cfg.ensembles) st' c f' := by
  obtain ⟨stc, hc, rfl⟩ := mcmcRound_spec h
  obtain ⟨fr, _, hchk, hne, _, hcase⟩ := convergenceCheck_spec hc
  obtain ⟨_, b2, _, _, b5, b6, _⟩ := burnStep_fields cfg { stc with file := stc.file.map (saveAll stc 0 stc.samplers) }
  have hss : stc.samplers = blocks cfg.checkinterval moves st.started 0 st.samplers st.inits := fr.samplers
  have hl : stc.samplers.length = cfg.ensembles := by rw [hss, blocks_length, hlen]
  have hne' : stc.samplers ≠ [] := by intro h0; rw [h0] at hl; simp at hl; omega
  have htr : ∃ c : Check, stc.trace = st.trace ++ [c] ∧ c.post = st.burnComplete := by
    rcases hcase with ⟨_, _, c3⟩ | ⟨_, _, _, _, _, _, _, c6⟩
    · exact ⟨_, c3, rfl⟩
    · exact ⟨_, c6, rfl⟩
  obtain ⟨c, htr, hpost⟩ := htr
  have hff : stc.file = some f := by rw [fr.file]; exact hfile
  obtain ⟨s1, s2, _, s4⟩ := saveAll_spec stc stc.samplers 0 m f hf (Nat.zero_le _)
  rw [zero_add, hl] at s1
  obtain ⟨k1, k2, k3, k4, k5, k6⟩ := s4 hne'
  have hauto : (burnStep cfg { stc with file := stc.file.map (saveAll stc 0 stc.samplers) }).autosamples = stc.autosamples ∧
      (burnStep cfg { stc with file := stc.file.map (saveAll stc 0 stc.samplers) }).automin = stc.automin ∧
      (burnStep cfg { stc with file := stc.file.map (saveAll stc 0 stc.samplers) }).automean = stc.automean ∧
      (burnStep cfg { stc with file := stc.file.map (saveAll stc 0 stc.samplers) }).automax = stc.automax ∧
      (stc.minafactor, stc.maxarchange, stc.mintz, stc.maxgr) = ((burnStep cfg { stc with file := stc.file.map (saveAll stc 0 stc.samplers) }).minafactor,
        (burnStep cfg { stc with file := stc.file.map (saveAll stc 0 stc.samplers) }).maxarchange, (burnStep cfg { stc with file := stc.file.map (saveAll stc 0 stc.samplers) }).mintz,
        (burnStep cfg { stc with file := stc.file.map (saveAll stc 0 stc.samplers) }).maxgr) ∧
      (stc.burnComplete = true → (burnStep cfg { stc with file := stc.file.map (saveAll stc 0 stc.samplers) }).nburn = stc.nburn) := by
    unfold burnStep
    split
    · rename_i hb
      refine ⟨rfl, rfl, rfl, rfl, rfl, fun h => ?_⟩
      have : stc.burnComplete = false := hb.1
      rw [h] at this; cases this
    · exact ⟨rfl, rfl, rfl, rfl, rfl, fun _ => rfl⟩
  have hbc : stc.burnComplete = c.post := by rw [hpost]; exact fr.burnComplete
  refine ⟨?_, c, saveAll stc 0 stc.samplers f, ?_, ?_, s1, ?_, k1.trans (congrArg some hauto.2.2.2.2.1), ?_, ?_, ?_, ?_, ?_⟩
  · rcases burnStep_samplers cfg { stc with file := stc.file.map (saveAll stc 0 stc.samplers) } with h1 | h1
    · rw [h1]; exact hl
    · rw [h1]; simpa using hl
  · rw [b6]; show stc.file.map _ = _; rw [hff]; rfl
  · rw [b2]; show stc.trace.getLast? = _; rw [htr]; simp
  · intro j s hs
    rw [b5] at hs
    have hs' : stc.checked[j]? = some s := hs
    rw [hchk, ← fr.samplers] at hs'
    have := s2 j s hs'
    rwa [zero_add] at this
  · rw [hauto.1]; exact k2
  · rw [hauto.2.1]; exact k3
  · rw [hauto.2.2.1]; exact k4
  · rw [hauto.2.2.2.1]; exact k5
  · have hn := hauto.2.2.2.2.2
    rw [k6]
    rcases hp : c.post with _ | _
    · rw [hp] at hbc
      rw [if_neg (by rw [hbc]; simp), if_neg (by simp)]
    · rw [hp] at hbc
      rw [if_pos hbc, if_pos rfl, hn hbc]

theorem loop_saved {itime : List Ens → List Fl} {moves : Nat → Nat → Pos → Move} {cfg : McConfig} (hens : 0 < cfg.ensembles) : ∀ (n : Nat) (st st' : McState) (b : Bool) (m : Nat) (f : H5),
    st.samplers.length = cfg.ensembles → st.file = some f → FileOf m f → mcmcLoop itime moves cfg (n + 1) st = .ok (st', b) →
      ∃ c f', st'.file = some f' ∧ Saved cfg (max m cfg.ensembles) st' c f' := by
  intro n
  induction n with
  | zero =>
    intro st st' b m f h1 h2 h3 h
    unfold mcmcLoop at h
    rcases hr : mcmcRound itime moves cfg st with e | st1
    · rw [hr] at h; cases h
    · rw [hr] at h
      simp only at h
      have := (round_saved hens h1 h2 h3 hr).2
      split at h
      · cases h; exact this
      · unfold mcmcLoop at h; cases h; exact this
  | succ n ih =>
    intro st st' b m f h1 h2 h3 h
    unfold mcmcLoop at h
    rcases hr : mcmcRound itime moves cfg st with e | st1
    · rw [hr] at h; cases h
    · rw [hr] at h
      simp only at h
      obtain ⟨g1, c, f', g2, g3⟩ := round_saved hens h1 h2 h3 hr
      split at h
      · cases h; exact ⟨c, f', g2, g3⟩
      · have := ih st1 st' b _ f' g1 g2 g3.file h
        rwa [max_eq_left (le_max_right m cfg.ensembles)] at this

theorem mapM_ok_map {α β : Type} (f : α → Except PyErr β) (g : α → β) : ∀ (l : List α), (∀ a ∈ l, f a = .ok (g a)) → l.mapM f = .ok (l.map g) := by
  intro l
  induction l with
  | nil => intro _; rfl
  | cons a l ih =>
    intro h
    rw [List.mapM_cons, h a (by simp), ih fun b hb => h b (by simp [hb])]
    rfl

theorem FileOf.numKeys {m : Nat} {f : H5} (h : FileOf m f) (h1 : f.crit.isSome) (h2 : f.autosample.isSome) (h3 : f.automin.isSome) (h4 : f.automean.isSome) (h5 : f.automax.isSome)
    (h6 : f.burned.isSome) : f.numKeys = 3 * m + 6 := by
  unfold H5.numKeys one?
  rw [if_pos h1, if_pos h2, if_pos h3, if_pos h4, if_pos h5, if_pos h6]
  have a : f.chain.length = m := by rw [← Dict.length_keys, h.chain, List.length_range]
  have b : f.logProb.length = m := by rw [← Dict.length_keys, h.logProb, List.length_range]
  have c : f.accepted.length = m := by rw [← Dict.length_keys, h.accepted, List.length_range]
  omega

theorem Saved.numKeys {cfg : McConfig} {m : Nat} {st : McState} {c : Check} {f : H5} (h : Saved cfg m st c f) : f.numKeys = 3 * m + 6 :=
  h.file.numKeys (by rw [h.crit]; rfl) (by rw [h.autosample]; rfl) (by rw [h.automin]; rfl) (by rw [h.automean]; rfl) (by rw [h.automax]; rfl) (by rw [h.burned]; rfl)

/-- Reading the saved samplers back. -/
theorem Saved.load {cfg : McConfig} {st : McState} {c : Check} {f : H5} (h : Saved cfg st.checked.length st c f) :
    (List.range ((f.numKeys - 6) / 3)).mapM (loadOne f) = .ok (st.checked.map fun s => { s with count := 0 }) := by
  rw [h.numKeys, show (3 * st.checked.length + 6 - 6) / 3 = st.checked.length by omega]
  have hg : ∀ a ∈ List.range st.checked.length, loadOne f a = .ok ((st.checked.map fun s => { s with count := 0 }).getD a ⟨[], [], [], 0⟩) := by
    intro a ha
    rw [List.mem_range] at ha
    obtain ⟨k1, k2, k3⟩ := h.got a _ (List.getElem?_eq_getElem ha)
    unfold loadOne Dict.get
    rw [k1, k2, k3]
    simp [bind, Except.bind, pure, Except.pure, List.getD_eq_getElem?_getD, List.getElem?_eq_getElem ha]
  rw [mapM_ok_map _ _ _ hg]
  congr 1
  apply List.ext_getElem?
  intro i
  rw [List.getElem?_map]
  rcases Nat.lt_or_ge i st.checked.length with hi | hi
  · rw [List.getElem?_range hi]
    simp [List.getD_eq_getElem?_getD, List.getElem?_eq_getElem hi]
  · rw [List.getElem?_eq_none (by simpa using hi), List.getElem?_eq_none (by simpa using hi)]
    rfl

end Radvel
