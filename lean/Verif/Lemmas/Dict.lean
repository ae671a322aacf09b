import Verif.Py.Dict

/-! Helper lemmas about insertion-ordered dictionaries. -/

namespace Radvel.Dict
variable {κ ν : Type} [DecidableEq κ]

@[simp] theorem get?_nil (k : κ) : get? ([] : Dict κ ν) k = none := rfl

@[simp] theorem get?_cons (p : κ × ν) (t : Dict κ ν) (k : κ) :
    get? (p :: t) k = if p.1 = k then some p.2 else get? t k := by
  cases p; rfl

theorem get?_set (d : Dict κ ν) (k k' : κ) (v : ν) :
    (d.set k v).get? k' = if k = k' then some v else d.get? k' := by
  induction d with
  | nil => simp [set]
  | cons p t ih =>
    obtain ⟨a, b⟩ := p
    unfold set
    by_cases h : a = k
    · subst h
      by_cases h2 : a = k' <;> simp [h2]
    · simp only [h, if_false, get?_cons, ih]
      by_cases h2 : a = k'
      · subst h2
        simp [Ne.symm h]
      · simp [h2]

@[simp] theorem get?_set_self (d : Dict κ ν) (k : κ) (v : ν) : (d.set k v).get? k = some v := by
  simp [get?_set]

theorem get?_set_ne (d : Dict κ ν) {k k' : κ} (v : ν) (h : k ≠ k') :
    (d.set k v).get? k' = d.get? k' := by simp [get?_set, h]

theorem get?_erase (d : Dict κ ν) (k k' : κ) :
    (d.erase k).get? k' = if k = k' then none else d.get? k' := by
  induction d with
  | nil => simp [erase]
  | cons p t ih =>
    obtain ⟨a, b⟩ := p
    unfold erase at *
    by_cases h : a = k
    · subst h
      simp only [List.filter_cons, ne_eq, not_true, decide_false, Bool.false_eq_true, if_false, ih,
        get?_cons]
      by_cases h2 : a = k' <;> simp [h2]
    · simp only [List.filter_cons, ne_eq, h, not_false_iff, decide_true, if_true, get?_cons, ih]
      by_cases h2 : a = k'
      · subst h2; simp [Ne.symm h]
      · simp [h2]

theorem get?_isSome_iff (d : Dict κ ν) (k : κ) : (d.get? k).isSome ↔ k ∈ d.keys := by
  induction d with
  | nil => simp [keys]
  | cons p t ih =>
    obtain ⟨a, b⟩ := p
    by_cases h : a = k
    · simp [h, keys]
    · simp only [get?_cons, h, if_false, ih]
      simp [keys, Ne.symm h]

theorem get?_eq_none_iff (d : Dict κ ν) (k : κ) : d.get? k = none ↔ k ∉ d.keys := by
  rw [← get?_isSome_iff]; simp

theorem has_iff (d : Dict κ ν) (k : κ) : d.has k = true ↔ k ∈ d.keys := by
  unfold has; exact get?_isSome_iff d k

theorem has_eq_false_iff (d : Dict κ ν) (k : κ) : d.has k = false ↔ k ∉ d.keys := by
  rw [← has_iff]; simp

theorem exists_get?_of_mem (d : Dict κ ν) {k : κ} (h : k ∈ d.keys) : ∃ v, d.get? k = some v :=
  Option.isSome_iff_exists.1 ((get?_isSome_iff d k).2 h)

theorem mem_keys_of_get? (d : Dict κ ν) {k : κ} {v : ν} (h : d.get? k = some v) : k ∈ d.keys := by
  rw [← get?_isSome_iff, h]; rfl

theorem mem_keys_set (d : Dict κ ν) (k k' : κ) (v : ν) :
    k' ∈ (d.set k v).keys ↔ k = k' ∨ k' ∈ d.keys := by
  rw [← get?_isSome_iff, get?_set, ← get?_isSome_iff]
  by_cases h : k = k' <;> simp [h]

theorem keys_set_of_mem (d : Dict κ ν) {k : κ} (v : ν) (h : k ∈ d.keys) :
    (d.set k v).keys = d.keys := by
  induction d with
  | nil => simp [keys] at h
  | cons p t ih =>
    obtain ⟨a, b⟩ := p
    unfold set
    by_cases hk : a = k
    · simp [hk, keys]
    · simp only [hk, if_false]
      have : k ∈ keys t := by simpa [keys, Ne.symm hk] using h
      have := ih this
      simp only [keys, List.map_cons] at *
      rw [this]

theorem keys_set_of_not_mem (d : Dict κ ν) {k : κ} (v : ν) (h : k ∉ d.keys) :
    (d.set k v).keys = d.keys ++ [k] := by
  induction d with
  | nil => simp [keys, set]
  | cons p t ih =>
    obtain ⟨a, b⟩ := p
    unfold set
    by_cases hk : a = k
    · simp [hk, keys] at h
    · simp only [hk, if_false]
      have : k ∉ keys t := by
        intro hc; apply h; simp [keys] at hc ⊢; right; exact hc
      have := ih this
      simp only [keys, List.map_cons, List.cons_append] at *
      rw [this]

theorem nodup_keys_set (d : Dict κ ν) (k : κ) (v : ν) (h : d.keys.Nodup) :
    (d.set k v).keys.Nodup := by
  by_cases hk : k ∈ d.keys
  · rw [keys_set_of_mem d v hk]; exact h
  · rw [keys_set_of_not_mem d v hk]
    rw [List.nodup_append]
    refine ⟨h, by simp, ?_⟩
    intro a ha b hb
    simp at hb; subst hb
    intro hab; subst hab; exact hk ha

theorem length_set (d : Dict κ ν) (k : κ) (v : ν) :
    (d.set k v).length = if k ∈ d.keys then d.length else d.length + 1 := by
  have h1 : ∀ e : Dict κ ν, e.length = e.keys.length := fun e => by simp [keys]
  split
  · rename_i h; rw [h1, keys_set_of_mem d v h, ← h1]
  · rename_i h; rw [h1, keys_set_of_not_mem d v h]; simp [keys]

omit [DecidableEq κ] in
theorem length_keys (d : Dict κ ν) : d.keys.length = d.length := by simp [keys]

theorem keys_erase (d : Dict κ ν) (k : κ) :
    (d.erase k).keys = d.keys.filter (fun x => decide (x ≠ k)) := by
  unfold erase keys
  rw [List.filter_map]
  rfl

theorem nodup_keys_erase (d : Dict κ ν) (k : κ) (h : d.keys.Nodup) : (d.erase k).keys.Nodup := by
  rw [keys_erase]; exact h.filter _

theorem mem_keys_erase (d : Dict κ ν) (k k' : κ) :
    k' ∈ (d.erase k).keys ↔ k ≠ k' ∧ k' ∈ d.keys := by
  rw [keys_erase, List.mem_filter]
  constructor
  · rintro ⟨h1, h2⟩; exact ⟨fun h => by simp [h] at h2, h1⟩
  · rintro ⟨h1, h2⟩; exact ⟨h2, by simpa using fun h => h1 h.symm⟩

theorem get?_of_mem_nodup (d : Dict κ ν) (h : d.keys.Nodup) {k : κ} {v : ν} (hm : (k, v) ∈ d) :
    d.get? k = some v := by
  induction d with
  | nil => simp at hm
  | cons p t ih =>
    obtain ⟨a, b⟩ := p
    simp only [keys, List.map_cons, List.nodup_cons] at h
    rcases List.mem_cons.1 hm with h1 | h1
    · cases h1; simp
    · have hne : a ≠ k := by
        intro hc; subst hc
        exact h.1 (List.mem_map.2 ⟨(a, v), h1, rfl⟩)
      simp only [get?_cons, hne, if_false]
      exact ih h.2 h1

theorem mem_of_get? (d : Dict κ ν) {k : κ} {v : ν} (h : d.get? k = some v) : (k, v) ∈ d := by
  induction d with
  | nil => simp at h
  | cons p t ih =>
    obtain ⟨a, b⟩ := p
    by_cases hk : a = k
    · subst hk; simp at h; subst h; simp
    · simp only [get?_cons, hk, if_false] at h
      exact List.mem_cons_of_mem _ (ih h)

theorem update_cons (d : Dict κ ν) (p : κ × ν) (e : Dict κ ν) :
    d.update (p :: e) = (d.set p.1 p.2).update e := rfl

theorem get?_update (d e : Dict κ ν) (h : e.keys.Nodup) (k : κ) :
    (d.update e).get? k = ((e.get? k).or (d.get? k)) := by
  induction e generalizing d with
  | nil => simp [update]
  | cons p t ih =>
    obtain ⟨a, b⟩ := p
    simp only [keys, List.map_cons, List.nodup_cons] at h
    rw [update_cons, ih _ h.2, get?_set, get?_cons]
    by_cases hk : a = k
    · subst hk
      have : get? t a = none := (get?_eq_none_iff t a).2 h.1
      simp [this]
    · simp [hk]

theorem nodup_keys_update (d e : Dict κ ν) (h : d.keys.Nodup) : (d.update e).keys.Nodup := by
  induction e generalizing d with
  | nil => simpa [update] using h
  | cons p t ih => rw [update_cons]; exact ih _ (nodup_keys_set _ _ _ h)

theorem mem_keys_update (d e : Dict κ ν) (k : κ) :
    k ∈ (d.update e).keys ↔ k ∈ d.keys ∨ k ∈ e.keys := by
  induction e generalizing d with
  | nil => simp [update, keys]
  | cons p t ih =>
    rw [update_cons, ih, mem_keys_set]
    have : k ∈ keys (p :: t) ↔ p.1 = k ∨ k ∈ keys t := by
      simp only [keys, List.map_cons, List.mem_cons, eq_comm]
    rw [this]
    constructor
    · rintro ((h | h) | h)
      · exact .inr (.inl h)
      · exact .inl h
      · exact .inr (.inr h)
    · rintro (h | h | h)
      · exact .inl (.inr h)
      · exact .inl (.inl h)
      · exact .inr h

theorem keys_update_of_subset (d e : Dict κ ν) (h : ∀ k ∈ e.keys, k ∈ d.keys) :
    (d.update e).keys = d.keys := by
  induction e generalizing d with
  | nil => simp [update]
  | cons p t ih =>
    rw [update_cons]
    have h1 : p.1 ∈ d.keys := h _ (by simp [keys])
    rw [ih, keys_set_of_mem _ _ h1]
    intro k hk
    rw [keys_set_of_mem _ _ h1]
    exact h k (by simp [keys] at hk ⊢; right; exact hk)

/-- Two dictionaries with the same key order and the same lookups are equal. -/
theorem ext_of_keys (d e : Dict κ ν) (hn : d.keys.Nodup) (hk : d.keys = e.keys)
    (hg : ∀ k ∈ d.keys, d.get? k = e.get? k) : d = e := by
  induction d generalizing e with
  | nil =>
    cases e with
    | nil => rfl
    | cons p t => simp [keys] at hk
  | cons p t ih =>
    cases e with
    | nil => simp [keys] at hk
    | cons q s =>
      obtain ⟨a, b⟩ := p
      obtain ⟨c, d'⟩ := q
      simp only [keys, List.map_cons, List.cons.injEq, List.nodup_cons] at hk hn
      obtain ⟨rfl, hk⟩ := hk
      have h1 := hg a (by simp [keys])
      simp at h1
      subst h1
      congr 1
      apply ih s hn.2 hk
      intro k hkm
      have := hg k (by simp [keys] at hkm ⊢; right; exact hkm)
      have hne : a ≠ k := by rintro rfl; exact hn.1 hkm
      simpa [hne] using this

end Radvel.Dict
