import Verif.Lemmas.Status
import Mathlib.Tactic.Tauto
import Mathlib.Tactic.SplitIfs
import Mathlib.Data.List.Induction

/-!
Helper lemmas for C79: what one save does to a configuration.
-/

namespace Radvel

/-- The value of an option. -/
def Config.value (c : Config) (s k : Text) : Option Text := (c.get? s).bind fun d => d.get? k

theorem plain_set {c : Config} (hc : PlainConfig c) {s : Text} (hs : PlainSection s) {d : Dict Text Text} (hn : d.keys.Nodup) (hd : ∀ k v, (k, v) ∈ d → PlainOption k ∧ PlainValue v) : PlainConfig (c.set s d) := by
  have hk := Dict.nodup_keys_set c s d hc.sections
  have hmem : ∀ s' d', (s', d') ∈ c.set s d → (s' = s ∧ d' = d) ∨ (s', d') ∈ c := by
    intro s' d' h
    have h1 := Dict.get?_of_mem_nodup _ hk h
    by_cases hss : s' = s
    · subst hss
      rw [Dict.get?_set_self] at h1
      cases h1
      exact .inl ⟨rfl, rfl⟩
    · rw [Dict.get?_set_ne _ _ (Ne.symm hss)] at h1
      exact .inr (Dict.mem_of_get? _ h1)
  refine ⟨hk, ?_, ?_, ?_⟩
  · intro s' d' h
    rcases hmem s' d' h with ⟨rfl, rfl⟩ | h
    · exact hs
    · exact hc.names s' d' h
  · intro s' d' h
    rcases hmem s' d' h with ⟨rfl, rfl⟩ | h
    · exact hn
    · exact hc.options s' d' h
  · intro s' d' h
    rcases hmem s' d' h with ⟨rfl, rfl⟩ | h
    · exact hd
    · exact hc.plain s' d' h

theorem plain_getD {c : Config} (hc : PlainConfig c) (s : Text) : ((c.get? s).getD []).keys.Nodup ∧ ∀ k v, (k, v) ∈ (c.get? s).getD [] → PlainOption k ∧ PlainValue v := by
  rcases h : c.get? s with _ | d
  · exact ⟨by simp [Dict.keys], by simp⟩
  · have := Dict.mem_of_get? _ h
    exact ⟨hc.options s d this, hc.plain s d this⟩

/-- What one call of `save_status` does to a configuration. -/
def stepConfig (c : Config) (x : Save) : Config := x.vars.foldl (fun c o => setOption c x.section_ o) (if c.has x.section_ then c else c.set x.section_ [])

theorem setOption_spec {c : Config} (hc : PlainConfig c) {s : Text} (hs : PlainSection s) {o : Text × Text} (ho : PlainOption (lower o.1) ∧ PlainValue o.2) :
    PlainConfig (setOption c s o) ∧ (∀ s' k, Config.value (setOption c s o) s' k = if s' = s ∧ lower o.1 = k then some o.2 else Config.value c s' k) ∧
      ∀ s', s' ∈ (setOption c s o).keys ↔ s' = s ∨ s' ∈ c.keys := by
  obtain ⟨h1, h2⟩ := plain_getD hc s
  have hn := Dict.nodup_keys_set ((c.get? s).getD []) (lower o.1) o.2 h1
  refine ⟨plain_set hc hs hn ?_, ?_, ?_⟩
  · intro k v h
    have h3 := Dict.get?_of_mem_nodup _ hn h
    by_cases hk : k = lower o.1
    · subst hk
      rw [Dict.get?_set_self] at h3
      cases h3
      exact ho
    · rw [Dict.get?_set_ne _ _ (Ne.symm hk)] at h3
      exact h2 k v (Dict.mem_of_get? _ h3)
  · intro s' k
    unfold setOption Config.value
    by_cases hss : s' = s
    · subst hss
      rw [Dict.get?_set_self]
      simp only [Option.bind_some, true_and]
      by_cases hk : lower o.1 = k
      · subst hk
        rw [Dict.get?_set_self]; simp
      · rw [Dict.get?_set_ne _ _ hk, if_neg hk]
        rcases c.get? s' with _ | d <;> simp [Dict.get?]
    · rw [Dict.get?_set_ne _ _ (Ne.symm hss), if_neg (by tauto)]
  · intro s'
    unfold setOption
    rw [Dict.mem_keys_set]
    tauto

theorem stepConfig_spec {c : Config} (hc : PlainConfig c) {x : Save} (hx : x.Plain) :
    PlainConfig (stepConfig c x) ∧ (∀ s k, Config.value (stepConfig c x) s k = if x.section_ = s then ((x.vars.reverse.find? fun o => lower o.1 = k).map Prod.snd).or (Config.value c s k) else Config.value c s k) ∧
      ∀ s, s ∈ (stepConfig c x).keys ↔ s = x.section_ ∨ s ∈ c.keys := by
  have hbase : PlainConfig (if c.has x.section_ then c else c.set x.section_ []) ∧ (∀ s k, Config.value (if c.has x.section_ then c else c.set x.section_ []) s k = Config.value c s k) ∧
      ∀ s, s ∈ (if c.has x.section_ then c else c.set x.section_ []).keys ↔ s = x.section_ ∨ s ∈ c.keys := by
    by_cases h : c.has x.section_ = true
    · rw [if_pos h]
      refine ⟨hc, fun _ _ => rfl, fun s => ⟨.inr, ?_⟩⟩
      rintro (rfl | h')
      · exact (Dict.has_iff _ _).1 h
      · exact h'
    · rw [if_neg h]
      refine ⟨plain_set hc hx.name (by simp [Dict.keys]) (by simp), ?_, ?_⟩
      · intro s k
        unfold Config.value
        by_cases hs : x.section_ = s
        · subst hs
          rw [Dict.get?_set_self]
          have : c.get? x.section_ = none := by
            rw [Dict.get?_eq_none_iff]
            intro hm
            exact h ((Dict.has_iff _ _).2 hm)
          simp [this, Dict.get?]
        · rw [Dict.get?_set_ne _ _ hs]
      · intro s
        rw [Dict.mem_keys_set]
        tauto
  unfold stepConfig
  obtain ⟨hp, hv⟩ := hx
  obtain ⟨b1, b2, b3⟩ := hbase
  generalize (if c.has x.section_ then c else c.set x.section_ []) = c0 at b1 b2 b3
  rcases x with ⟨sec, vars⟩
  simp only at *
  induction vars using List.reverseRecOn with
  | nil => exact ⟨b1, fun s k => by simp [b2], b3⟩
  | append_singleton vars o ih =>
    obtain ⟨i1, i2, i3⟩ := ih (fun o h => hv o (by simp [h]))
    rw [List.foldl_append]
    simp only [List.foldl_cons, List.foldl_nil]
    obtain ⟨j1, j2, j3⟩ := setOption_spec i1 hp (hv o (by simp))
    refine ⟨j1, ?_, ?_⟩
    · intro s k
      rw [j2, i2]
      by_cases hs : sec = s
      · subst hs
        simp only [if_true, true_and, List.reverse_append, List.reverse_cons, List.reverse_nil, List.nil_append, List.singleton_append, List.find?_cons]
        by_cases hk : lower o.1 = k
        · simp [hk]
        · simp [hk]
      · rw [if_neg hs, if_neg (by intro h; exact hs h.1.symm), if_neg hs]
    · intro s
      rw [j3, i3]
      tauto

theorem lastSaved_cons (x : Save) (t : List Save) (s k : Text) :
    lastSaved (x :: t) s k = (lastSaved t s k).or (if x.section_ = s then (x.vars.reverse.find? fun o => lower o.1 = k).map Prod.snd else none) := by
  unfold lastSaved
  by_cases hs : x.section_ = s
  · simp only [hs, decide_true, List.filter_cons_of_pos, List.flatMap_cons, List.reverse_append, List.find?_append, if_true]
    rcases List.find? _ _ with _ | y <;> simp
  · simp [hs]

end Radvel
