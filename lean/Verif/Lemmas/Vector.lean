import Verif.Lemmas.Params
import Verif.Spec.Built

namespace Radvel

variable {α : Type}

/-- Keys of the dictionary that have no index yet. -/
def unindexed (s : VState α) : List Key := s.params.items.keys.filter (fun k => !s.indices.has k)

structure IdxInv (s : VState α) (n : Nat) : Prop where
  nodup : s.params.items.keys.Nodup
  five : s.params.basis ≠ .perTcTpEWK
  orb : ∀ p m, Key.orb p m ∈ s.params.items.keys ↔ p ∈ s.params.basis.words ∧ 1 ≤ m ∧ m ≤ s.params.numPlanets
  orbIdx : ∀ p m, 1 ≤ m → m ≤ s.params.numPlanets → s.indices.get? (.orb p m) = some (5 * (m - 1) + p.offset)
  dvdtIdx : s.indices.get? .dvdt = some (5 * s.params.numPlanets)
  curvIdx : s.indices.get? .curv = some (5 * s.params.numPlanets + 1)
  ext : ∀ k i, k.isOrb = false → k.isTrend = false → s.indices.get? k = some i →
    k ∈ s.params.items.keys ∧ 5 * s.params.numPlanets + 2 ≤ i ∧ i < n
  extInj : ∀ k k' i, k.isOrb = false → k.isTrend = false → k'.isOrb = false → k'.isTrend = false →
    s.indices.get? k = some i → s.indices.get? k' = some i → k = k'
  size : 5 * s.params.numPlanets + 2 ≤ n
  count : n + (unindexed s).length = vectorSize s.params.items
  noblank : ∀ k q, s.params.items.get? k = some q → q.vary ≠ .blank

namespace IdxInv

variable {s : VState α} {n : Nat}

/-- Keys whose indices matter: the dictionary's and the two trend keys. -/
def Rel (s : VState α) (k : Key) : Prop := k ∈ s.params.items.keys ∨ k = .dvdt ∨ k = .curv

theorem kinds (h : IdxInv s n) {k : Key} (hk : Rel s k) {i : Nat} (hi : s.indices.get? k = some i) :
    (∃ p m, k = .orb p m ∧ p ∈ s.params.basis.words ∧ 1 ≤ m ∧ m ≤ s.params.numPlanets ∧ i = 5 * (m - 1) + p.offset) ∨
    (k = .dvdt ∧ i = 5 * s.params.numPlanets) ∨ (k = .curv ∧ i = 5 * s.params.numPlanets + 1) ∨
    (k.isOrb = false ∧ k.isTrend = false ∧ 5 * s.params.numPlanets + 2 ≤ i ∧ i < n) := by
  cases k with
  | orb p m =>
    have hm : Key.orb p m ∈ s.params.items.keys := by
      rcases hk with h | h | h
      · exact h
      · cases h
      · cases h
    obtain ⟨h1, h2, h3⟩ := (h.orb p m).1 hm
    rw [h.orbIdx p m h2 h3] at hi
    exact Or.inl ⟨p, m, rfl, h1, h2, h3, by cases hi; rfl⟩
  | dvdt => rw [h.dvdtIdx] at hi; exact Or.inr (Or.inl ⟨rfl, by cases hi; rfl⟩)
  | curv => rw [h.curvIdx] at hi; exact Or.inr (Or.inr (Or.inl ⟨rfl, by cases hi; rfl⟩))
  | inst g r => exact Or.inr (Or.inr (Or.inr ⟨rfl, rfl, (h.ext _ _ rfl rfl hi).2⟩))
  | other r => exact Or.inr (Or.inr (Or.inr ⟨rfl, rfl, (h.ext _ _ rfl rfl hi).2⟩))

theorem bound (h : IdxInv s n) {k : Key} (hk : Rel s k) {i : Nat} (hi : s.indices.get? k = some i) : i < n := by
  have := h.size
  rcases h.kinds hk hi with ⟨p, m, _, _, _, _, h6⟩ | ⟨_, h2⟩ | ⟨_, h2⟩ | ⟨_, _, _, h4⟩
  · have := offset_lt p; omega
  · omega
  · omega
  · exact h4

theorem inj (h : IdxInv s n) {k k' : Key} (hk : Rel s k) (hk' : Rel s k') {i : Nat}
    (hi : s.indices.get? k = some i) (hi' : s.indices.get? k' = some i) : k = k' := by
  rcases h.kinds hk hi with ⟨p, m, rfl, a3, a4, a5, a6⟩ | ⟨rfl, a2⟩ | ⟨rfl, a2⟩ | ⟨a1, a2, a3, a4⟩ <;>
  rcases h.kinds hk' hi' with ⟨p', m', rfl, b3, b4, b5, b6⟩ | ⟨rfl, b2⟩ | ⟨rfl, b2⟩ | ⟨b1, b2, b3, b4⟩
  · have := offset_lt p; have := offset_lt p'
    have hm : m = m' := by omega
    subst hm
    have : p = p' := offset_inj_words _ h.five _ _ a3 b3 (by omega)
    rw [this]
  all_goals first
    | rfl
    | exact h.extInj _ _ i a1 a2 b1 b2 hi hi'
    | (exfalso; have := offset_lt p; omega)
    | (exfalso; have := offset_lt p'; omega)
    | (exfalso; omega)

theorem indexed_of_not_mem (h : IdxInv s n) (hu : unindexed s = []) {k : Key} (hk : Rel s k) :
    ∃ i, s.indices.get? k = some i := by
  rcases hk with hk | rfl | rfl
  · by_contra hc
    have : k ∈ unindexed s := by
      unfold unindexed
      rw [List.mem_filter]
      refine ⟨hk, ?_⟩
      have : Dict.get? s.indices k = none := by
        cases hg : Dict.get? s.indices k with
        | none => rfl
        | some i => exact absurd ⟨i, hg⟩ hc
      simp [Dict.has, this]
    rw [hu] at this
    simp at this
  · exact ⟨_, h.dvdtIdx⟩
  · exact ⟨_, h.curvIdx⟩

end IdxInv

theorem vectorSize_le (d : Dict Key (Parameter α)) : vectorSize d ≤ d.length + 2 := by
  unfold vectorSize; split <;> split <;> omega

/-! ### dict_to_vector -/

theorem IdxInv.dictToVector [Zero α] {s : VState α} {n : Nat} (h : IdxInv s n) :
    ∃ s', s.dictToVector = .ok s' ∧ s'.params = s.params ∧ s'.indices = s.indices ∧ s'.names = s.names ∧
      s'.rows.length = vectorSize s.params.items ∧
      (∀ k q i, s.params.items.get? k = some q → s.indices.get? k = some i → s'.rows[i]? = some (mkRow q)) ∧
      (∀ i, i < vectorSize s.params.items → (∀ k ∈ s.params.items.keys, s.indices.get? k ≠ some i) →
        s'.rows[i]? = some Row.zero) := by
  have hc := h.count
  obtain ⟨rows', h1, h2, h3, h4⟩ := fillRows_spec s.indices s.params.items
    (List.replicate (vectorSize s.params.items) Row.zero) h.nodup
    (fun k hk i hi => by
      have := h.bound (Or.inl hk) hi
      simp only [List.length_replicate]; omega)
    (fun k hk k' hk' i hi hi' => h.inj (Or.inl hk) (Or.inl hk') hi hi')
    (fun x hx => h.noblank x.1 x.2 (Dict.get?_of_mem_nodup _ h.nodup hx))
  refine ⟨{ s with rows := rows' }, by simp [VState.dictToVector, h1], rfl, rfl, rfl, by simpa using h2, ?_, ?_⟩
  · intro k q i hq hi
    exact h3 (k, q) (Dict.mem_of_get? _ hq) i hi
  · intro i hi hk
    rw [h4 i hk]
    simp [hi]

/-! ### vector_names -/

theorem nameExtra_spec (idx : Dict Key Nat) (has : Bool) (k : Key) (ns : List (Option Key)) (i : Nat)
    (hi : idx.get? k = some i) (hf : has = false → ns[i]? = some none) :
    ∃ ns', nameExtra idx has k ns = .ok ns' ∧ ns'.length = ns.length ∧
      (has = true → ns' = ns) ∧ (has = false → ns'[i]? = some (some k)) ∧ (∀ j, j ≠ i → ns'[j]? = ns[j]?) := by
  cases has with
  | true => exact ⟨ns, by simp [nameExtra], rfl, fun _ => rfl, by simp, fun _ _ => rfl⟩
  | false =>
    have h0 := hf rfl
    have hlt : i < ns.length := by
      by_contra hc
      rw [List.getElem?_eq_none (by omega)] at h0
      cases h0
    refine ⟨ns.set i (some k), by simp [nameExtra, hi, h0], by simp, by simp, ?_, ?_⟩
    · intro _; simp [hlt]
    · intro j hj; simp [Ne.symm hj]

theorem IdxInv.vectorNames {s : VState α} {n : Nat} (h : IdxInv s n) :
    ∃ s', s.vectorNames = .ok s' ∧ s'.params = s.params ∧ s'.indices = s.indices ∧ s'.rows = s.rows ∧
      (unindexed s = [] → s'.names.length = n ∧
        (∀ k i, IdxInv.Rel s k → s.indices.get? k = some i → s'.names[i]? = some k) ∧
        (∀ i k, s'.names[i]? = some k → IdxInv.Rel s k ∧ s.indices.get? k = some i)) := by
  have hc := h.count
  have hv := vectorSize_le s.params.items
  obtain ⟨ns1, a1, a2, a3, a4⟩ := fillNames_spec s.indices s.params.items.keys
    (List.replicate (s.params.items.length + 2) none) h.nodup
    (fun k hk i hi => by
      have := h.bound (Or.inl hk) hi
      simp only [List.length_replicate]; omega)
    (fun k hk k' hk' i hi hi' => h.inj (Or.inl hk) (Or.inl hk') hi hi')
  have hsz := h.size
  have hfree : ∀ k i, IdxInv.Rel s k → k ∉ s.params.items.keys → s.indices.get? k = some i →
      ns1[i]? = some none := by
    intro k i hk hnk hi
    rw [a4 i]
    · have := h.bound hk hi
      rw [List.getElem?_replicate, if_pos (by omega)]
    · intro k' hk' hi'
      exact hnk (h.inj hk (Or.inl hk') hi hi' ▸ hk')
  obtain ⟨ns2, b1, b2, b3, b4, b5⟩ := nameExtra_spec s.indices (s.params.items.has .dvdt) .dvdt ns1 _ h.dvdtIdx
    (fun hh => hfree .dvdt _ (Or.inr (Or.inl rfl)) ((Dict.has_eq_false_iff _ _).1 hh) h.dvdtIdx)
  obtain ⟨ns3, c1, c2, c3, c4, c5⟩ := nameExtra_spec s.indices (s.params.items.has .curv) .curv ns2 _ h.curvIdx
    (fun hh => by
      rw [b5 _ (by omega)]
      exact hfree .curv _ (Or.inr (Or.inr rfl)) ((Dict.has_eq_false_iff _ _).1 hh) h.curvIdx)
  refine ⟨{ s with names := ns3.filterMap id }, by simp [VState.vectorNames, a1, b1, c1], rfl, rfl, rfl, ?_⟩
  intro hu
  have key : ∀ k i, IdxInv.Rel s k → s.indices.get? k = some i → ns3[i]? = some (some k) := by
    intro k i hk hi
    by_cases hcv : k = .curv
    · subst hcv
      have hi2 := hi; rw [h.curvIdx] at hi2; cases hi2
      cases hh : s.params.items.has .curv with
      | true =>
        rw [c3 hh, b5 _ (by omega)]
        exact a3 _ ((Dict.has_iff _ _).1 hh) _ hi
      | false => exact c4 hh
    · have hi' : i ≠ 5 * s.params.numPlanets + 1 := by
        intro hh; subst hh
        exact hcv (h.inj hk (Or.inr (Or.inr rfl)) hi h.curvIdx)
      rw [c5 i hi']
      by_cases hdv : k = .dvdt
      · subst hdv
        have hi2 := hi; rw [h.dvdtIdx] at hi2; cases hi2
        cases hh : s.params.items.has .dvdt with
        | true =>
          rw [b3 hh]
          exact a3 _ ((Dict.has_iff _ _).1 hh) _ hi
        | false => exact b4 hh
      · have hi'' : i ≠ 5 * s.params.numPlanets := by
          intro hh; subst hh
          exact hdv (h.inj hk (Or.inr (Or.inl rfl)) hi h.dvdtIdx)
        rw [b5 i hi'']
        rcases hk with hk | hk | hk
        · exact a3 k hk i hi
        · exact absurd hk hdv
        · exact absurd hk hcv
  -- surjectivity by counting
  have hsurj : ∀ i, i < n → ∃ k, IdxInv.Rel s k ∧ s.indices.get? k = some i := by
    let K := s.params.items.keys ++ (if s.params.items.has .dvdt then [] else [.dvdt]) ++
      (if s.params.items.has .curv then [] else [Key.curv])
    have hKrel : ∀ k ∈ K, IdxInv.Rel s k := by
      intro k hk
      simp only [K, List.mem_append] at hk
      rcases hk with (hk | hk) | hk
      · exact Or.inl hk
      · split at hk
        · simp at hk
        · exact Or.inr (Or.inl (by simpa using hk))
      · split at hk
        · simp at hk
        · exact Or.inr (Or.inr (by simpa using hk))
    have hKnd : K.Nodup := by
      simp only [K]
      rw [List.nodup_append, List.nodup_append]
      refine ⟨⟨h.nodup, by split <;> simp, ?_⟩, by split <;> simp, ?_⟩
      · intro a ha b hb
        split at hb
        · simp at hb
        · next hh =>
          simp at hb; subst hb
          intro he; subst he
          exact hh ((Dict.has_iff _ _).2 ha)
      · intro a ha b hb
        split at hb
        · simp at hb
        · next hh =>
          simp at hb; subst hb
          intro he; subst he
          rw [List.mem_append] at ha
          rcases ha with ha | ha
          · exact hh ((Dict.has_iff _ _).2 ha)
          · split at ha <;> simp at ha
    have hKlen : K.length = n := by
      rw [hu] at hc
      simp only [List.length_nil, Nat.add_zero] at hc
      rw [hc]
      simp only [K, vectorSize, List.length_append, Dict.length_keys]
      congr 1
      · congr 1; split <;> simp
      · split <;> simp
    have hidx : ∀ k ∈ K, ∃ i, s.indices.get? k = some i := fun k hk => h.indexed_of_not_mem hu (hKrel k hk)
    let L := K.map (fun k => (s.indices.get? k).getD 0)
    have hLget : ∀ k ∈ K, s.indices.get? k = some ((s.indices.get? k).getD 0) := by
      intro k hk; obtain ⟨i, hi⟩ := hidx k hk; simp [hi]
    have hLnd : L.Nodup := by
      apply List.Nodup.map_on _ hKnd
      intro a ha b hb hab
      exact h.inj (hKrel a ha) (hKrel b hb) (hLget a ha) (by rw [hLget b hb]; simp [hab])
    have hLb : ∀ i ∈ L, i < n := by
      intro i hi
      obtain ⟨k, hk, rfl⟩ := List.mem_map.1 hi
      exact h.bound (hKrel k hk) (hLget k hk)
    intro i hi
    have := mem_of_nodup_length hLnd hLb (by simp [L, hKlen]) i hi
    obtain ⟨k, hk, rfl⟩ := List.mem_map.1 this
    exact ⟨k, hKrel k hk, hLget k hk⟩
  have hlen3 : ns3.length = s.params.items.length + 2 := by rw [c2, b2, a2]; simp
  have hnone : ∀ i : Nat, n ≤ i → (ns3[i]?).join = none := by
    intro i hi
    have e1 : i ≠ 5 * s.params.numPlanets + 1 := by omega
    have e2 : i ≠ 5 * s.params.numPlanets := by omega
    rw [c5 i e1, b5 i e2, a4 i (fun k hk hki => by have := h.bound (Or.inl hk) hki; omega)]
    by_cases hl : i < s.params.items.length + 2
    · simp [hl]
    · simp [hl]
  have hfm := filterMap_id_prefix ns3 n (by
      rw [hlen3]; rw [hu] at hc; simp at hc; omega)
    (fun i hi => by obtain ⟨k, hk, hki⟩ := hsurj i hi; exact ⟨k, key k i hk hki⟩) hnone
  refine ⟨hfm.1, ?_, ?_⟩
  · intro k i hk hi
    show (List.filterMap id ns3)[i]? = some k
    rw [hfm.2 i, key k i hk hi]; rfl
  · intro i k hk
    change (List.filterMap id ns3)[i]? = some k at hk
    have hi : i < n := by
      rw [← hfm.1]
      by_contra hcn
      rw [List.getElem?_eq_none (by omega)] at hk
      cases hk
    obtain ⟨k', hk', hki'⟩ := hsurj i hi
    rw [hfm.2 i, key k' i hk' hki'] at hk
    simp at hk
    subst hk
    exact ⟨hk', hki'⟩

/-! ### constructing a likelihood -/

theorem unindexed_congr_set {s : VState α} (key : Key) (v : Parameter α) (hk : key ∉ s.params.items.keys) (m : Nat) :
    unindexed ({ s with params := s.params.setItem key v, indices := s.indices.set key m } : VState α) =
      unindexed s := by
  unfold unindexed
  simp only [Params.setItem]
  rw [Dict.keys_set_of_not_mem _ _ hk, List.filter_append]
  have h1 : [key].filter (fun k => !(s.indices.set key m).has k) = [] := by simp [Dict.has]
  rw [h1, List.append_nil]
  apply List.filter_congr
  intro x hx
  have : key ≠ x := fun h => hk (h ▸ hx)
  simp [Dict.has, Dict.get?_set, this]

theorem vectorSize_set_of_mem (d : Dict Key (Parameter α)) (k : Key) (v : Parameter α) (h : k ∈ d.keys) :
    vectorSize (d.set k v) = vectorSize d := by
  have hh : ∀ x, (d.set k v).has x = d.has x := by
    intro x
    rw [Bool.eq_iff_iff, Dict.has_iff, Dict.has_iff, Dict.keys_set_of_mem _ _ h]
  simp [vectorSize, hh, Dict.length_set, h]

theorem has_set_ne (d : Dict Key (Parameter α)) (k x : Key) (v : Parameter α) (h : k ≠ x) :
    (d.set k v).has x = d.has x := by
  simp [Dict.has, Dict.get?_set, h]

theorem has_set_self (d : Dict Key (Parameter α)) (k : Key) (v : Parameter α) : (d.set k v).has k = true := by
  simp [Dict.has]

theorem vectorSize_set_trend (d : Dict Key (Parameter α)) (k : Key) (v : Parameter α)
    (ht : k = .dvdt ∨ k = .curv) : vectorSize (d.set k v) = vectorSize d := by
  by_cases h : k ∈ d.keys
  · exact vectorSize_set_of_mem d k v h
  · have hf : d.has k = false := (Dict.has_eq_false_iff _ _).2 h
    rcases ht with rfl | rfl
    · unfold vectorSize
      rw [Dict.length_set, if_neg h, has_set_self, has_set_ne _ _ _ _ (by simp), hf]
      simp
    · unfold vectorSize
      rw [Dict.length_set, if_neg h, has_set_self, has_set_ne _ _ _ _ (by simp), hf]
      simp; omega

theorem vectorSize_set_new (d : Dict Key (Parameter α)) (k : Key) (v : Parameter α) (h : k ∉ d.keys)
    (h1 : k ≠ .dvdt) (h2 : k ≠ .curv) : vectorSize (d.set k v) = vectorSize d + 1 := by
  unfold vectorSize
  rw [Dict.length_set, if_neg h, has_set_ne _ _ _ _ h1, has_set_ne _ _ _ _ h2]
  omega

/-- Editing an existing or trend parameter in the dictionary. -/
theorem IdxInv.edit {s : VState α} {n : Nat} (h : IdxInv s n) (k : Key) (v : Parameter α)
    (hk : Rel s k) (hv : v.vary ≠ .blank) : IdxInv { s with params := s.params.setItem k v } n := by
  have hmem : ∀ x, x ∈ (s.params.items.set k v).keys ↔ k = x ∨ x ∈ s.params.items.keys :=
    fun x => Dict.mem_keys_set _ _ _ _
  refine ⟨Dict.nodup_keys_set _ _ _ h.nodup, h.five, ?_, h.orbIdx, h.dvdtIdx, h.curvIdx, ?_, h.extInj, h.size, ?_, ?_⟩
  · intro p m
    simp only [Params.setItem]
    rw [hmem, ← h.orb p m]
    constructor
    · rintro (rfl | hx)
      · rcases hk with h | h | h
        · exact h
        · cases h
        · cases h
      · exact hx
    · exact Or.inr
  · intro x i h1 h2 h3
    obtain ⟨a, b⟩ := h.ext x i h1 h2 h3
    exact ⟨(hmem x).2 (Or.inr a), b⟩
  · show n + (unindexed _).length = vectorSize (s.params.items.set k v)
    have hu : (unindexed ({ s with params := s.params.setItem k v } : VState α)) = unindexed s := by
      unfold unindexed
      simp only [Params.setItem]
      by_cases hm : k ∈ s.params.items.keys
      · rw [Dict.keys_set_of_mem _ _ hm]
      · rw [Dict.keys_set_of_not_mem _ _ hm, List.filter_append]
        have : [k].filter (fun k => !s.indices.has k) = [] := by
          rcases hk with h' | rfl | rfl
          · exact absurd h' hm
          · simp [Dict.has, h.dvdtIdx]
          · simp [Dict.has, h.curvIdx]
        rw [this, List.append_nil]
    rw [hu, h.count]
    rcases hk with hk | hk
    · exact (vectorSize_set_of_mem _ _ _ hk).symm
    · exact (vectorSize_set_trend _ _ _ hk).symm
  · intro x q hq
    simp only [Params.setItem, Dict.get?_set] at hq
    split at hq
    · cases hq; exact hv
    · exact h.noblank x q hq

theorem IdxInv.addExtra [Zero α] {s : VState α} {n : Nat} (h : IdxInv s n) (key : Key) (ho : key.isOrb = false) :
    IdxInv (addExtra (s, n) key).1 (addExtra (s, n) key).2 := by
  unfold Radvel.addExtra
  simp only
  by_cases hk : key ∈ s.params.items.keys
  · have hh : s.params.items.has key = true := (Dict.has_iff _ _).2 hk
    simp only [hh, if_true]
    by_cases hi : s.indices.has key = true
    · simp only [hi, if_true]; exact h
    · simp only [hi, Bool.false_eq_true, if_false]
      have hnone : s.indices.get? key = none := by
        simpa [Dict.has] using hi
      have hnd : key ≠ .dvdt := by rintro rfl; rw [h.dvdtIdx] at hnone; cases hnone
      have hnc : key ≠ .curv := by rintro rfl; rw [h.curvIdx] at hnone; cases hnone
      refine ⟨h.nodup, h.five, h.orb, ?_, ?_, ?_, ?_, ?_, ?_, ?_, h.noblank⟩
      · intro p m h1 h2
        have : key ≠ .orb p m := by rintro rfl; cases ho
        show Dict.get? (s.indices.set key n) _ = _
        rw [Dict.get?_set_ne _ _ this]; exact h.orbIdx p m h1 h2
      · show Dict.get? (s.indices.set key n) _ = _
        rw [Dict.get?_set_ne _ _ hnd]; exact h.dvdtIdx
      · show Dict.get? (s.indices.set key n) _ = _
        rw [Dict.get?_set_ne _ _ hnc]; exact h.curvIdx
      · intro x i h1 h2 h3
        change Dict.get? (s.indices.set key n) _ = _ at h3
        rw [Dict.get?_set] at h3
        split at h3
        · next he => cases h3; subst he; exact ⟨hk, h.size, by show n < n + 1; omega⟩
        · obtain ⟨a, b, c⟩ := h.ext x i h1 h2 h3
          exact ⟨a, b, by show i < n + 1; omega⟩
      · intro x y i hx1 hx2 hy1 hy2 hx hy
        change Dict.get? (s.indices.set key n) _ = _ at hx hy
        rw [Dict.get?_set] at hx hy
        split at hx <;> split at hy
        · next a b => exact a.symm.trans b
        · cases hx; have := (h.ext y _ hy1 hy2 hy).2.2; omega
        · cases hy; have := (h.ext x _ hx1 hx2 hx).2.2; omega
        · exact h.extInj x y i hx1 hx2 hy1 hy2 hx hy
      · have := h.size; show _ ≤ n + 1; simp only; omega
      · have hf := filter_change_one s.params.items.keys h.nodup (fun k => !s.indices.has k)
          (fun k => !(s.indices.set key n).has k) key hk (by simpa using hi) (by simp [Dict.has])
          (by intro x hx; simp [Dict.has, Dict.get?_set, Ne.symm hx])
        have hc := h.count
        unfold unindexed at hc ⊢
        simp only at hc ⊢
        show n + 1 + _ = _
        omega
  · have hh : s.params.items.has key = false := (Dict.has_eq_false_iff _ _).2 hk
    simp only [hh, Bool.false_eq_true, if_false]
    by_cases hi : s.indices.has key = true
    · simp only [hi, if_true]
      have htr : key = .dvdt ∨ key = .curv := by
        obtain ⟨i, hi'⟩ := Option.isSome_iff_exists.1 (show (s.indices.get? key).isSome from hi)
        cases hkk : key with
        | dvdt => exact Or.inl rfl
        | curv => exact Or.inr rfl
        | orb p m => subst hkk; cases ho
        | inst g r => subst hkk; exact absurd (h.ext _ _ rfl rfl hi').1 hk
        | other r => subst hkk; exact absurd (h.ext _ _ rfl rfl hi').1 hk
      have := h.edit key { value := 0 } (Or.inr htr) (by simp)
      simpa using this
    · simp only [hi, Bool.false_eq_true, if_false]
      have hnone : s.indices.get? key = none := by
        simpa [Dict.has] using hi
      have hnd : key ≠ .dvdt := by rintro rfl; rw [h.dvdtIdx] at hnone; cases hnone
      have hnc : key ≠ .curv := by rintro rfl; rw [h.curvIdx] at hnone; cases hnone
      have hno : ∀ p m, key ≠ .orb p m := by rintro p m rfl; cases ho
      refine ⟨Dict.nodup_keys_set _ _ _ h.nodup, h.five, ?_, ?_, ?_, ?_, ?_, ?_, ?_, ?_, ?_⟩
      · intro p m
        show Key.orb p m ∈ (s.params.items.set key _).keys ↔
          p ∈ s.params.basis.words ∧ 1 ≤ m ∧ m ≤ s.params.numPlanets
        rw [Dict.mem_keys_set, ← h.orb p m]
        constructor
        · rintro (h' | h')
          · exact absurd h' (hno p m)
          · exact h'
        · exact Or.inr
      · intro p m h1 h2
        show Dict.get? (s.indices.set key n) _ = _
        rw [Dict.get?_set_ne _ _ (hno p m)]; exact h.orbIdx p m h1 h2
      · show Dict.get? (s.indices.set key n) _ = _
        rw [Dict.get?_set_ne _ _ hnd]; exact h.dvdtIdx
      · show Dict.get? (s.indices.set key n) _ = _
        rw [Dict.get?_set_ne _ _ hnc]; exact h.curvIdx
      · intro x i h1 h2 h3
        change Dict.get? (s.indices.set key n) _ = _ at h3
        rw [Dict.get?_set] at h3
        show x ∈ (s.params.items.set key _).keys ∧ _ ∧ i < n + 1
        rw [Dict.mem_keys_set]
        split at h3
        · next he => cases h3; exact ⟨Or.inl he, h.size, by omega⟩
        · obtain ⟨a, b, c⟩ := h.ext x i h1 h2 h3
          exact ⟨Or.inr a, b, by omega⟩
      · intro x y i hx1 hx2 hy1 hy2 hx hy
        change Dict.get? (s.indices.set key n) _ = _ at hx hy
        rw [Dict.get?_set] at hx hy
        split at hx <;> split at hy
        · next a b => exact a.symm.trans b
        · cases hx; have := (h.ext y _ hy1 hy2 hy).2.2; omega
        · cases hy; have := (h.ext x _ hx1 hx2 hx).2.2; omega
        · exact h.extInj x y i hx1 hx2 hy1 hy2 hx hy
      · have := h.size
        show 5 * s.params.numPlanets + 2 ≤ n + 1
        omega
      · have hc := h.count
        have := unindexed_congr_set (s := s) key { value := (0 : α) } hk n
        show n + 1 + (unindexed ({ s with params := s.params.setItem key { value := 0 }, indices := s.indices.set key n } : VState α)).length = _
        rw [this]
        show _ = vectorSize (s.params.items.set key _)
        rw [vectorSize_set_new _ _ _ hk hnd hnc]
        omega
      · intro x q hq
        change Dict.get? (s.params.items.set key _) x = some q at hq
        rw [Dict.get?_set] at hq
        split at hq
        · cases hq; simp
        · exact h.noblank x q hq

theorem addExtra_keys [Zero α] (acc : VState α × Nat) (key : Key) :
    (∀ k, k ∈ acc.1.params.items.keys → k ∈ (addExtra acc key).1.params.items.keys) ∧
    key ∈ (addExtra acc key).1.params.items.keys ∧
    (∀ k ∈ unindexed (addExtra acc key).1, k ∈ unindexed acc.1 ∧ k ≠ key) ∧
    (addExtra acc key).1.params.numPlanets = acc.1.params.numPlanets ∧
    (addExtra acc key).1.params.basis = acc.1.params.basis ∧
    (∀ k q, acc.1.params.items.get? k = some q → (addExtra acc key).1.params.items.get? k = some q) := by
  obtain ⟨s, n⟩ := acc
  unfold addExtra unindexed
  by_cases hk : key ∈ s.params.items.keys
  · have hh : s.params.items.has key = true := (Dict.has_iff _ _).2 hk
    simp only [hh, if_true]
    by_cases hi : s.indices.has key = true
    · simp only [hi, if_true]
      refine ⟨fun _ h => h, hk, ?_, by trivial, by trivial, fun _ _ h => h⟩
      intro k hk2
      refine ⟨hk2, ?_⟩
      rintro rfl
      simp [hi] at hk2
    · simp only [hi]
      refine ⟨fun _ h => h, hk, ?_, by trivial, by trivial, fun _ _ h => h⟩
      intro k hk2
      simp only [Bool.false_eq_true, if_false, List.mem_filter, Dict.has, Dict.get?_set] at hk2 ⊢
      obtain ⟨h1, h2⟩ := hk2
      split at h2
      · simp at h2
      · next hne => exact ⟨⟨h1, h2⟩, Ne.symm hne⟩
  · have hh : s.params.items.has key = false := (Dict.has_eq_false_iff _ _).2 hk
    simp only [hh]
    have hnew : ∀ (v : Parameter α) k q, s.params.items.get? k = some q → (s.params.items.set key v).get? k = some q := by
      intro v k q hq
      rw [Dict.get?_set, if_neg]
      · exact hq
      · rintro rfl; exact hk (Dict.mem_keys_of_get? _ hq)
    by_cases hi : s.indices.has key = true
    · simp only [hi, if_true, Params.setItem, Bool.false_eq_true, if_false]
      refine ⟨fun k h => (Dict.mem_keys_set _ _ _ _).2 (Or.inr h), (Dict.mem_keys_set _ _ _ _).2 (Or.inl rfl), ?_, by trivial, by trivial, hnew _⟩
      intro k hk2
      rw [List.mem_filter, Dict.mem_keys_set] at hk2
      have hne : k ≠ key := by rintro rfl; simp [hi] at hk2
      refine ⟨?_, hne⟩
      rw [List.mem_filter]
      rcases hk2 with ⟨h | h, h3⟩
      · exact absurd h.symm hne
      · exact ⟨h, h3⟩
    · simp only [hi, Params.setItem, Bool.false_eq_true, if_false]
      refine ⟨fun k h => (Dict.mem_keys_set _ _ _ _).2 (Or.inr h), (Dict.mem_keys_set _ _ _ _).2 (Or.inl rfl), ?_, by trivial, by trivial, hnew _⟩
      intro k hk2
      rw [List.mem_filter, Dict.mem_keys_set] at hk2
      simp only [Dict.has, Dict.get?_set] at hk2
      have hne : k ≠ key := by rintro rfl; simp at hk2
      refine ⟨?_, hne⟩
      rw [List.mem_filter]
      rw [if_neg (Ne.symm hne)] at hk2
      rcases hk2 with ⟨h | h, h3⟩
      · exact absurd h.symm hne
      · exact ⟨h, h3⟩

theorem addExtras_inv [Zero α] (ks : List Key) (s : VState α) (n : Nat) (h : IdxInv s n)
    (ho : ∀ k ∈ ks, k.isOrb = false) :
    let r := ks.foldl addExtra (s, n)
    IdxInv r.1 r.2 ∧ (∀ k, k ∈ s.params.items.keys → k ∈ r.1.params.items.keys) ∧
    (∀ k ∈ ks, k ∈ r.1.params.items.keys) ∧ (∀ k ∈ unindexed r.1, k ∈ unindexed s ∧ k ∉ ks) ∧
    r.1.params.numPlanets = s.params.numPlanets ∧ r.1.params.basis = s.params.basis ∧
    (∀ k q, s.params.items.get? k = some q → r.1.params.items.get? k = some q) := by
  induction ks generalizing s n with
  | nil => exact ⟨h, fun _ h => h, by simp, fun k hk => ⟨hk, by simp⟩, rfl, rfl, fun _ _ h => h⟩
  | cons k t ih =>
    have h1 := h.addExtra k (ho k (by simp))
    obtain ⟨a1, a2, a3, a4, a5, a6⟩ := addExtra_keys (s, n) k
    obtain ⟨b1, b2, b3, b4, b5, b6, b7⟩ := ih (addExtra (s, n) k).1 (addExtra (s, n) k).2 h1 (fun k hk => ho k (List.mem_cons_of_mem _ hk))
    refine ⟨b1, fun x hx => b2 x (a1 x hx), ?_, ?_, b5.trans a4, b6.trans a5, fun k q hq => b7 k q (a6 k q hq)⟩
    · intro x hx
      rcases List.mem_cons.1 hx with rfl | hx
      · exact b2 _ a2
      · exact b3 x hx
    · intro x hx
      obtain ⟨c1, c2⟩ := b4 x hx
      obtain ⟨d1, d2⟩ := a3 x c1
      exact ⟨d1, by simp [d2, c2]⟩

end Radvel
