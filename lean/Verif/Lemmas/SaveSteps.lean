import Verif.Model.SaveSteps
import Verif.Lemmas.ChainFile
import Mathlib.Tactic.IntervalCases

/-! Stopping a save after some of its operations. -/

namespace Radvel
open Classical

/-- Two files with the same datasets. -/
structure SameFile (f g : H5) : Prop where
  chain : ∀ j, f.chain.get? j = g.chain.get? j
  logProb : ∀ j, f.logProb.get? j = g.logProb.get? j
  accepted : ∀ j, f.accepted.get? j = g.accepted.get? j
  crit : f.crit = g.crit
  autosample : f.autosample = g.autosample
  automin : f.automin = g.automin
  automean : f.automean = g.automean
  automax : f.automax = g.automax
  burned : f.burned = g.burned

/-- No dataset exists twice. -/
structure H5.Nodup (f : H5) : Prop where
  chain : f.chain.keys.Nodup
  logProb : f.logProb.keys.Nodup
  accepted : f.accepted.keys.Nodup

theorem FileOf.nodup {m : Nat} {f : H5} (h : FileOf m f) : f.Nodup :=
  ⟨by rw [h.chain]; exact List.nodup_range, by rw [h.logProb]; exact List.nodup_range, by rw [h.accepted]; exact List.nodup_range⟩

theorem dict_length_same {ν : Type} {d e : Dict Nat ν} (hd : d.keys.Nodup) (he : e.keys.Nodup) (h : ∀ j, d.get? j = e.get? j) : d.length = e.length := by
  have hp : d.keys.Perm e.keys := (List.perm_ext_iff_of_nodup hd he).2 fun j => by
    rw [← Dict.get?_isSome_iff, ← Dict.get?_isSome_iff, h j]
  have := hp.length_eq
  rwa [Dict.length_keys, Dict.length_keys] at this

theorem SameFile.numKeys {f g : H5} (h : SameFile f g) (hf : f.Nodup) (hg : g.Nodup) : f.numKeys = g.numKeys := by
  unfold H5.numKeys
  rw [dict_length_same hf.chain hg.chain h.chain, dict_length_same hf.logProb hg.logProb h.logProb, dict_length_same hf.accepted hg.accepted h.accepted, h.crit, h.autosample, h.automin, h.automean,
    h.automax, h.burned]

theorem SameFile.loadOne {f g : H5} (h : SameFile f g) : loadOne f = loadOne g := by
  funext i
  unfold Radvel.loadOne Dict.get
  rw [h.chain, h.logProb, h.accepted]

theorem SameFile.start {f g : H5} (h : SameFile f g) (hf : f.Nodup) (hg : g.Nodup) (cfg : McConfig) (file : Option H5) (prev : Option (List Ens × List (List (List Fl)))) :
    startProceed cfg f file prev = startProceed cfg g file prev := by
  unfold startProceed Dict.get
  rw [h.numKeys hf hg, h.loadOne, h.chain, h.crit, h.autosample, h.automin, h.automean, h.automax, h.burned]

theorem SameFile.rfl' (f : H5) : SameFile f f := ⟨fun _ => rfl, fun _ => rfl, fun _ => rfl, rfl, rfl, rfl, rfl, rfl, rfl⟩

theorem SameFile.symm {f g : H5} (h : SameFile f g) : SameFile g f :=
  ⟨fun j => (h.chain j).symm, fun j => (h.logProb j).symm, fun j => (h.accepted j).symm, h.crit.symm, h.autosample.symm, h.automin.symm, h.automean.symm, h.automax.symm, h.burned.symm⟩

theorem SameFile.trans {f g k : H5} (h : SameFile f g) (h' : SameFile g k) : SameFile f k :=
  ⟨fun j => (h.chain j).trans (h'.chain j), fun j => (h.logProb j).trans (h'.logProb j), fun j => (h.accepted j).trans (h'.accepted j), h.crit.trans h'.crit, h.autosample.trans h'.autosample,
    h.automin.trans h'.automin, h.automean.trans h'.automean, h.automax.trans h'.automax, h.burned.trans h'.burned⟩

theorem runSteps_append (a b : List (H5 → H5)) (f : H5) : runSteps (a ++ b) f = runSteps b (runSteps a f) := by simp [runSteps]

/-- Saving one ensemble operation by operation. -/
theorem block_same (st : McState) (f : H5) (i : Nat) (s : Sampler) : SameFile (runSteps (delSteps i ++ writeSteps st i s) f) (saveOne st f i s) := by
  refine ⟨fun j => ?_, fun j => ?_, fun j => ?_, rfl, rfl, rfl, rfl, rfl, rfl⟩
  · show ((f.chain.erase i).set i s.chain).get? j = (f.chain.set i s.chain).get? j
    rw [Dict.get?_set, Dict.get?_set, Dict.get?_erase]; split <;> rfl
  · show ((f.logProb.erase i).set i s.logProb).get? j = (f.logProb.set i s.logProb).get? j
    rw [Dict.get?_set, Dict.get?_set, Dict.get?_erase]; split <;> rfl
  · show ((f.accepted.erase i).set i s.accepted).get? j = (f.accepted.set i s.accepted).get? j
    rw [Dict.get?_set, Dict.get?_set, Dict.get?_erase]; split <;> rfl

theorem block_nodup (st : McState) (f : H5) (i : Nat) (s : Sampler) (hf : f.Nodup) : (runSteps (delSteps i ++ writeSteps st i s) f).Nodup :=
  ⟨Dict.nodup_keys_set _ _ _ (Dict.nodup_keys_erase _ _ hf.chain), Dict.nodup_keys_set _ _ _ (Dict.nodup_keys_erase _ _ hf.logProb),
    Dict.nodup_keys_set _ _ _ (Dict.nodup_keys_erase _ _ hf.accepted)⟩

theorem SameFile.saveOne {f g : H5} (h : SameFile f g) (st : McState) (i : Nat) (s : Sampler) : SameFile (saveOne st f i s) (saveOne st g i s) := by
  refine ⟨fun j => ?_, fun j => ?_, fun j => ?_, rfl, rfl, rfl, rfl, rfl, rfl⟩
  · show (f.chain.set i s.chain).get? j = (g.chain.set i s.chain).get? j
    rw [Dict.get?_set, Dict.get?_set, h.chain]
  · show (f.logProb.set i s.logProb).get? j = (g.logProb.set i s.logProb).get? j
    rw [Dict.get?_set, Dict.get?_set, h.logProb]
  · show (f.accepted.set i s.accepted).get? j = (g.accepted.set i s.accepted).get? j
    rw [Dict.get?_set, Dict.get?_set, h.accepted]

theorem SameFile.saveAll {st : McState} : ∀ (ss : List Sampler) (i : Nat) {f g : H5}, SameFile f g → SameFile (saveAll st i ss f) (saveAll st i ss g) := by
  intro ss
  induction ss with
  | nil => intro i f g h; exact h
  | cons a ss ih => intro i f g h; exact ih (i + 1) (h.saveOne st i a)

theorem block_len (st : McState) (i : Nat) (s : Sampler) : (delSteps i ++ writeSteps st i s).length = 18 := rfl

theorem saveSteps_length (st : McState) : ∀ (ss : List Sampler) (i : Nat), (saveSteps st i ss).length = 18 * ss.length := by
  intro ss
  induction ss with
  | nil => intro i; rfl
  | cons a ss ih =>
    intro i
    unfold saveSteps
    rw [List.length_append, block_len, ih, List.length_cons]
    omega

/-- Performed in full, the operations are the save of the model. -/
theorem saveSteps_same (st : McState) : ∀ (ss : List Sampler) (i : Nat) (f : H5), f.Nodup → SameFile (runSteps (saveSteps st i ss) f) (saveAll st i ss f) ∧ (runSteps (saveSteps st i ss) f).Nodup := by
  intro ss
  induction ss with
  | nil => intro i f hf; exact ⟨SameFile.rfl' _, hf⟩
  | cons a ss ih =>
    intro i f hf
    unfold saveSteps
    rw [runSteps_append]
    obtain ⟨h1, h2⟩ := ih (i + 1) _ (block_nodup st f i a hf)
    exact ⟨h1.trans (SameFile.saveAll ss (i + 1) (block_same st f i a)), h2⟩

/-- Stopping between two ensembles. -/
theorem saveSteps_take (st : McState) : ∀ (ss : List Sampler) (i e r : Nat), r < 18 → e < ss.length →
    (saveSteps st i ss).take (18 * e + r) = saveSteps st i (ss.take e) ++ ((delSteps (i + e) ++ writeSteps st (i + e) (ss.getD e ⟨[], [], [], 0⟩)).take r) := by
  intro ss
  induction ss with
  | nil => intro i e r _ he; simp at he
  | cons a ss ih =>
    intro i e r hr he
    cases e with
    | zero =>
      show (delSteps i ++ writeSteps st i a ++ saveSteps st (i + 1) ss).take (18 * 0 + r) = saveSteps st i [] ++ _
      rw [List.take_append_of_le_length (by rw [block_len]; omega)]
      simp [saveSteps]
    | succ e =>
      show (delSteps i ++ writeSteps st i a ++ saveSteps st (i + 1) ss).take (18 * (e + 1) + r) = delSteps i ++ writeSteps st i a ++ saveSteps st (i + 1) (ss.take e) ++ _
      rw [List.take_append, List.take_of_length_le (by rw [block_len]; omega), block_len, show 18 * (e + 1) + r - 18 = 18 * e + r by omega,
        ih (i + 1) e r hr (by simpa using he), show i + 1 + e = i + (e + 1) by omega]
      simp [List.append_assoc]

theorem dict_erase_lt {ν : Type} (d : Dict Nat ν) (i : Nat) (h : i ∈ d.keys) : (d.erase i).length < d.length := by
  obtain ⟨v, hv⟩ := Dict.exists_get?_of_mem d h
  exact List.length_filter_lt_length_iff_exists.2 ⟨(i, v), Dict.mem_of_get? d hv, by simp⟩

theorem one?_le {α : Type} (o : Option α) : one? o ≤ 1 := by unfold one?; split <;> omega

theorem one?_none {α : Type} : one? (none : Option α) = 0 := rfl

/-- While one ensemble is being saved, at least one dataset is missing. -/
theorem block_missing (st : McState) (f : H5) (i : Nat) (s : Sampler) (m : Nat) (hf : f.Nodup) (hc : f.chain.length = m) (hl : f.logProb.length = m) (ha : f.accepted.length = m)
    (ic : i ∈ f.chain.keys) (il : i ∈ f.logProb.keys) (ia : i ∈ f.accepted.keys) (r : Nat) (h0 : 0 < r) (hr : r < 18) :
    (runSteps ((delSteps i ++ writeSteps st i s).take r) f).numKeys < 3 * m + 6 := by
  have e1 := dict_erase_lt f.chain i ic
  have e2 := dict_erase_lt f.logProb i il
  have e3 := dict_erase_lt f.accepted i ia
  have n1 : i ∉ (f.chain.erase i).keys := by rw [Dict.mem_keys_erase]; simp
  have n2 : i ∉ (f.logProb.erase i).keys := by rw [Dict.mem_keys_erase]; simp
  have n3 : i ∉ (f.accepted.erase i).keys := by rw [Dict.mem_keys_erase]; simp
  have s1 : ((f.chain.erase i).set i s.chain).length = (f.chain.erase i).length + 1 := by rw [← Dict.length_keys, Dict.keys_set_of_not_mem _ _ n1]; simp [Dict.length_keys]
  have s2 : ((f.logProb.erase i).set i s.logProb).length = (f.logProb.erase i).length + 1 := by rw [← Dict.length_keys, Dict.keys_set_of_not_mem _ _ n2]; simp [Dict.length_keys]
  have s3 : ((f.accepted.erase i).set i s.accepted).length = (f.accepted.erase i).length + 1 := by rw [← Dict.length_keys, Dict.keys_set_of_not_mem _ _ n3]; simp [Dict.length_keys]
  have a1 := one?_le f.crit
  have a2 := one?_le f.autosample
  have a3 := one?_le f.automin
  have a4 := one?_le f.automean
  have a5 := one?_le f.automax
  have a6 := one?_le f.burned
  interval_cases r <;> simp only [delSteps, writeSteps, List.cons_append, List.nil_append, List.take_succ_cons, List.take_zero, runSteps, List.foldl_cons, List.foldl_nil, H5.numKeys, one?_none] <;>
    simp only [one?, Option.isSome_some, if_true] at * <;> omega

/-- A file with too few datasets is rejected. -/
theorem startProceed_few {cfg : McConfig} {f : H5} (h : f.numKeys < 3 * cfg.ensembles + 6) (file : Option H5) (prev : Option (List Ens × List (List (List Fl)))) :
    ∃ e, startProceed cfg f file prev = .error e := by
  rcases hs : startProceed cfg f file prev with e | st'
  · exact ⟨e, rfl⟩
  · exfalso
    unfold startProceed at hs
    simp only [bind, Except.bind] at hs
    repeat' (split at hs; · cases hs)
    all_goals first | (cases hs; done) | omega | skip

theorem saveAll_after (st : McState) : ∀ (ss : List Sampler) (i j : Nat) (f : H5), i + ss.length ≤ j → (saveAll st i ss f).chain.get? j = f.chain.get? j ∧
    (saveAll st i ss f).logProb.get? j = f.logProb.get? j ∧ (saveAll st i ss f).accepted.get? j = f.accepted.get? j := by
  intro ss
  induction ss with
  | nil => intro i j f _; exact ⟨rfl, rfl, rfl⟩
  | cons a ss ih =>
    intro i j f h
    rw [List.length_cons] at h
    obtain ⟨k1, k2, k3⟩ := ih (i + 1) j (saveOne st f i a) (by omega)
    have hne : i ≠ j := by omega
    unfold saveAll
    rw [k1, k2, k3]
    simp [saveOne, Dict.get?_set, hne]

end Radvel
