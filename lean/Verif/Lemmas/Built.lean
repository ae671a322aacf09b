import Verif.Lemmas.Vector

namespace Radvel

variable {α : Type}

theorem instIndices_get (N : Nat) (ks : List Key) (n : Nat) (d : Dict Key Nat) (hn : ks.Nodup) (k : Key) :
    (instIndices N ks n d).get? k =
      if k ∈ ks ∧ k.isInst = true then some (2 + (n + (ks.filter Key.isInst).idxOf k) + 5 * N) else d.get? k := by
  induction ks generalizing n d with
  | nil => simp [instIndices]
  | cons a t ih =>
    rw [List.nodup_cons] at hn
    by_cases ha : a.isInst = true
    · obtain ⟨g, r, rfl⟩ : ∃ g r, a = .inst g r := by
        cases a <;> simp [Key.isInst] at ha
        exact ⟨_, _, rfl⟩
      simp only [instIndices]
      rw [ih (n + 1) _ hn.2, List.filter_cons, if_pos ha]
      by_cases hk : k = .inst g r
      · subst hk
        simp [hn.1, Key.isInst]
      · have h1 : (Key.inst g r) ≠ k := Ne.symm hk
        simp only [List.mem_cons, hk, false_or]
        split
        · rw [List.idxOf_cons_ne _ h1]; congr 1; omega
        · rw [Dict.get?_set_ne _ _ h1]
    · have hstep : instIndices N (a :: t) n d = instIndices N t n d := by
        cases a <;> first | rfl | simp [Key.isInst] at ha
      rw [hstep, ih n d hn.2, List.filter_cons, if_neg ha]
      by_cases hk : k = a
      · subst hk; simp [ha]
      · simp [hk]

theorem planetIndices_get (i : Nat) (d : Dict Key Nat) (k : Key) :
    (planetIndices i d).get? k =
      match k with
      | .orb p m => if m = i + 1 then some (5 * i + p.offset) else d.get? (.orb p m)
      | _ => d.get? k := by
  unfold planetIndices PName.registered
  simp only [List.foldl, Dict.get?_set]
  cases k with
  | orb p m =>
    by_cases hm : m = i + 1
    · subst hm; cases p <;> simp [PName.offset]
    · have : ∀ q, (Key.orb q (i + 1) = Key.orb p m) ↔ False := by
        intro q; simp; intro _ h; exact hm h.symm
      simp [this, hm]
  | _ => simp

theorem planetsIndices_get (N : Nat) (d : Dict Key Nat) (k : Key) :
    ((List.range N).foldl (fun d i => planetIndices i d) d).get? k =
      match k with
      | .orb p m => if 1 ≤ m ∧ m ≤ N then some (5 * (m - 1) + p.offset) else d.get? (.orb p m)
      | _ => d.get? k := by
  induction N with
  | zero =>
    cases k with
    | orb p m => simp; intro h1 h2; omega
    | _ => simp
  | succ N ih =>
    rw [List.range_succ, List.foldl_append]
    simp only [List.foldl_cons, List.foldl_nil]
    rw [planetIndices_get]
    cases k with
    | orb p m =>
      simp only at ih ⊢
      by_cases hm : m = N + 1
      · subst hm; simp
      · rw [if_neg hm, ih]
        by_cases h : 1 ≤ m ∧ m ≤ N
        · rw [if_pos h, if_pos ⟨h.1, by omega⟩]
        · rw [if_neg h, if_neg (by omega)]
    | _ => simpa using ih

theorem initIndexDict_get (p : Params α) (hn : p.items.keys.Nodup) (k : Key) :
    (initIndexDict p).get? k =
      match k with
      | .orb q m => if 1 ≤ m ∧ m ≤ p.numPlanets then some (5 * (m - 1) + q.offset) else none
      | .dvdt => some (5 * p.numPlanets)
      | .curv => some (5 * p.numPlanets + 1)
      | .inst g r => if Key.inst g r ∈ p.items.keys then
          some (2 + (p.items.keys.filter Key.isInst).idxOf (.inst g r) + 5 * p.numPlanets) else none
      | .other _ => none := by
  unfold initIndexDict
  simp only [Dict.get?_set]
  rw [planetsIndices_get, instIndices_get _ _ _ _ hn]
  cases k with
  | orb q m => simp [instIndices_get _ _ _ _ hn, Key.isInst]
  | dvdt => simp
  | curv => simp
  | inst g r => simp [Key.isInst]
  | other s => simp [Key.isInst]

/-- What user-built parameter sets satisfy. -/
structure GoodParams (p : Params α) : Prop where
  nodup : p.items.keys.Nodup
  five : p.basis ≠ .perTcTpEWK
  orb : ∀ q m, Key.orb q m ∈ p.items.keys ↔ q ∈ p.basis.words ∧ 1 ≤ m ∧ m ≤ p.numPlanets
  noother : ∀ s, Key.other s ∉ p.items.keys
  noblank : ∀ k q, p.items.get? k = some q → q.vary ≠ .blank

theorem foldl_set_get (ks : List Key) (v : Parameter α) (d : Dict Key (Parameter α)) (k : Key) :
    (ks.foldl (fun d k => d.set k v) d).get? k = if k ∈ ks then some v else d.get? k := by
  induction ks generalizing d with
  | nil => simp
  | cons a t ih =>
    simp only [List.foldl_cons]
    rw [ih, Dict.get?_set]
    by_cases hk : k ∈ t
    · simp [hk]
    · by_cases ha : a = k
      · simp [ha]
      · simp [hk, ha, Ne.symm ha]

theorem foldl_set_nodup (ks : List Key) (v : Parameter α) (d : Dict Key (Parameter α)) (hd : d.keys.Nodup) :
    (ks.foldl (fun d k => d.set k v) d).keys.Nodup := by
  induction ks generalizing d with
  | nil => exact hd
  | cons a t ih => exact ih _ (Dict.nodup_keys_set _ _ _ hd)

theorem foldl_set_keys (ks : List Key) (v : Parameter α) (d : Dict Key (Parameter α)) (hn : ks.Nodup)
    (hd : ∀ k ∈ ks, k ∉ d.keys) :
    (ks.foldl (fun d k => d.set k v) d).keys = d.keys ++ ks := by
  induction ks generalizing d with
  | nil => simp
  | cons a t ih =>
    rw [List.nodup_cons] at hn
    simp only [List.foldl_cons]
    rw [ih _ hn.2, Dict.keys_set_of_not_mem _ _ (hd a (by simp))]
    · simp
    · intro k hk
      rw [Dict.keys_set_of_not_mem _ _ (hd a (by simp)), List.mem_append]
      rintro (h | h)
      · exact hd k (List.mem_cons_of_mem _ hk) h
      · simp at h; subst h; exact hn.1 hk

theorem Params.init_keys (dflt : α) (N : Nat) (b : BasisName) (l : Option (Dict Nat String)) :
    (Params.init dflt N b l).items.keys = defaultKeys N b.words := by
  unfold Params.init
  simp only
  rw [foldl_set_keys _ _ _ (nodup_defaultKeys N _ (words_nodup b)) (by simp [Dict.keys])]
  simp [Dict.keys]

theorem UserParams.good {p : Params α} (h : UserParams p) : GoodParams p := by
  induction h with
  | new dflt N b l hb =>
    refine ⟨?_, hb, ?_, ?_, ?_⟩
    · rw [Params.init_keys]; exact nodup_defaultKeys N _ (words_nodup b)
    · intro q m
      rw [Params.init_keys, mem_defaultKeys]
      constructor
      · rintro ⟨q', m', he, h⟩; cases he; exact h
      · intro h; exact ⟨q, m, rfl, h⟩
    · intro s
      rw [Params.init_keys, mem_defaultKeys]
      rintro ⟨q', m', he, h⟩; cases he
    · intro k q hq
      unfold Params.init at hq
      simp only at hq
      rw [foldl_set_get] at hq
      split at hq
      · cases hq; simp
      · simp at hq
  | set p k v h hk hv ih =>
    refine ⟨Dict.nodup_keys_set _ _ _ ih.nodup, ih.five, ?_, ?_, ?_⟩
    · intro q m
      show Key.orb q m ∈ (p.items.set k v).keys ↔ q ∈ p.basis.words ∧ 1 ≤ m ∧ m ≤ p.numPlanets
      rw [Dict.mem_keys_set, ← ih.orb]
      constructor
      · rintro (rfl | hx)
        · rcases hk with h | h | h | ⟨g, r, h⟩
          · exact h
          · cases h
          · cases h
          · cases h
        · exact hx
      · exact Or.inr
    · intro s
      show Key.other s ∉ (p.items.set k v).keys
      rw [Dict.mem_keys_set]
      rintro (rfl | hx)
      · rcases hk with h | h | h | ⟨g, r, h⟩
        · exact ih.noother _ h
        · cases h
        · cases h
        · cases h
      · exact ih.noother s hx
    · intro x q hq
      change Dict.get? (p.items.set k v) x = some q at hq
      rw [Dict.get?_set] at hq
      split at hq
      · cases hq; exact hv
      · exact ih.noblank x q hq

theorem GoodParams.count {p : Params α} (h : GoodParams p) :
    vectorSize p.items = 5 * p.numPlanets + 2 + (p.items.keys.filter Key.isInst).length := by
  have hperm : (p.items.keys.filter Key.isOrb).Perm (defaultKeys p.numPlanets p.basis.words) := by
    rw [List.perm_ext_iff_of_nodup (h.nodup.filter _) (nodup_defaultKeys _ _ (words_nodup _))]
    intro k
    rw [List.mem_filter, mem_defaultKeys]
    constructor
    · rintro ⟨h1, h2⟩
      cases k <;> simp [Key.isOrb] at h2
      exact ⟨_, _, rfl, (h.orb _ _).1 h1⟩
    · rintro ⟨q, m, rfl, h1⟩
      exact ⟨(h.orb _ _).2 h1, rfl⟩
  have horb : (p.items.keys.filter Key.isOrb).length = 5 * p.numPlanets := by
    rw [hperm.length_eq, length_defaultKeys, words_length _ h.five]; omega
  have hd : ∀ k0 : Key, ∀ ks : List Key, ks.Nodup → (ks.filter (fun k => decide (k = k0))).length = if k0 ∈ ks then 1 else 0 := by
    intro k0 ks hks
    rw [← List.countP_eq_length_filter]
    have : ks.countP (fun k => decide (k = k0)) = ks.count k0 := by
      unfold List.count
      congr 1
    rw [this]
    split
    · exact List.count_eq_one_of_mem hks ‹_›
    · exact List.count_eq_zero.2 ‹_›
  have hall : ∀ ks : List Key, (∀ s, Key.other s ∉ ks) → ks.length = (ks.filter Key.isOrb).length +
      (ks.filter Key.isInst).length + (ks.filter (fun k => decide (k = Key.dvdt))).length +
      (ks.filter (fun k => decide (k = Key.curv))).length := by
    intro ks hks
    induction ks with
    | nil => rfl
    | cons a t ih =>
      have := ih (fun s hs => hks s (List.mem_cons_of_mem _ hs))
      cases a with
      | other s => exact absurd (List.mem_cons_self) (hks s)
      | _ => simp [List.filter_cons, Key.isOrb, Key.isInst]; omega
  have h0 := hall _ h.noother
  rw [horb, hd _ _ h.nodup, hd _ _ h.nodup] at h0
  rw [Dict.length_keys] at h0
  unfold vectorSize
  have e1 : (if p.items.has Key.dvdt then 0 else 1) = 1 - (if Key.dvdt ∈ p.items.keys then 1 else 0) := by
    by_cases hh : Key.dvdt ∈ p.items.keys
    · simp [hh, (Dict.has_iff _ _).2 hh]
    · simp [hh, (Dict.has_eq_false_iff _ _).2 hh]
  have e2 : (if p.items.has Key.curv then 0 else 1) = 1 - (if Key.curv ∈ p.items.keys then 1 else 0) := by
    by_cases hh : Key.curv ∈ p.items.keys
    · simp [hh, (Dict.has_iff _ _).2 hh]
    · simp [hh, (Dict.has_eq_false_iff _ _).2 hh]
  rw [e1, e2]
  split at h0 <;> split at h0 <;> simp_all <;> omega

theorem GoodParams.inv {p : Params α} (h : GoodParams p) (rows : List (Row α)) (names : List Key) :
    IdxInv { params := p, indices := initIndexDict p, rows := rows, names := names } (vectorSize p.items) ∧
    unindexed { params := p, indices := initIndexDict p, rows := rows, names := names } = [] := by
  have hg := initIndexDict_get p h.nodup
  have hc := h.count
  have hu : unindexed { params := p, indices := initIndexDict p, rows := rows, names := names } = [] := by
    unfold unindexed
    rw [List.filter_eq_nil_iff]
    intro k hk
    simp only [Dict.has, hg k]
    cases k with
    | orb q m => obtain ⟨_, h2, h3⟩ := (h.orb q m).1 hk; simp [h2, h3]
    | dvdt => simp
    | curv => simp
    | inst g r => simp [hk]
    | other s => exact absurd hk (h.noother s)
  refine ⟨⟨h.nodup, h.five, h.orb, ?_, ?_, ?_, ?_, ?_, by show _ ≤ vectorSize p.items; simp only; omega, ?_, h.noblank⟩, hu⟩
  · intro q m h1 h2
    show Dict.get? (initIndexDict p) _ = _
    rw [hg]; simp only; rw [if_pos ⟨h1, h2⟩]
  · show Dict.get? (initIndexDict p) _ = _
    rw [hg]
  · show Dict.get? (initIndexDict p) _ = _
    rw [hg]
  · intro k i h1 h2 h3
    change Dict.get? (initIndexDict p) _ = _ at h3
    rw [hg] at h3
    cases k with
    | orb q m => cases h1
    | dvdt => cases h2
    | curv => cases h2
    | other s => cases h3
    | inst g r =>
      simp only at h3
      split at h3
      · next hm =>
        cases h3
        have hm' : Key.inst g r ∈ p.items.keys.filter Key.isInst := List.mem_filter.2 ⟨hm, rfl⟩
        have := List.idxOf_lt_length_of_mem hm'
        refine ⟨hm, by simp only; omega, by omega⟩
      · cases h3
  · intro k k' i h1 h2 h1' h2' h3 h3'
    change Dict.get? (initIndexDict p) _ = _ at h3 h3'
    rw [hg] at h3 h3'
    cases k with
    | orb q m => cases h1
    | dvdt => cases h2
    | curv => cases h2
    | other s => cases h3
    | inst g r =>
      cases k' with
      | orb q m => cases h1'
      | dvdt => cases h2'
      | curv => cases h2'
      | other s => cases h3'
      | inst g' r' =>
        simp only at h3 h3'
        split at h3
        · next hm =>
          split at h3'
          · next hm' =>
            have a : Key.inst g r ∈ p.items.keys.filter Key.isInst := List.mem_filter.2 ⟨hm, rfl⟩
            have : (p.items.keys.filter Key.isInst).idxOf (.inst g r) = (p.items.keys.filter Key.isInst).idxOf (.inst g' r') := by
              injection h3 with h3; injection h3' with h3'; omega
            exact (List.idxOf_inj a).1 this
          · cases h3'
        · cases h3
  · rw [hu]; rfl

theorem IdxInv.congr {s s' : VState α} {n : Nat} (h : IdxInv s n) (hp : s'.params = s.params)
    (hi : s'.indices = s.indices) : IdxInv s' n := by
  obtain ⟨p, i, r, nm⟩ := s
  obtain ⟨p', i', r', nm'⟩ := s'
  simp only at hp hi
  subst hp; subst hi
  exact ⟨h.1, h.2, h.3, h.4, h.5, h.6, h.7, h.8, h.9, h.10, h.11⟩

theorem unindexed_congr {s s' : VState α} (hp : s'.params = s.params)
    (hi : s'.indices = s.indices) : unindexed s' = unindexed s := by
  unfold unindexed; rw [hp, hi]

/-- What a freshly written vector satisfies. -/
structure Fresh [Zero α] (s : VState α) : Prop where
  inv : IdxInv s s.rows.length
  ui : unindexed s = []
  rows : ∀ k q i, s.params.items.get? k = some q → s.indices.get? k = some i → s.rows[i]? = some (mkRow q)
  blank : ∀ i, i < s.rows.length → (∀ k ∈ s.params.items.keys, s.indices.get? k ≠ some i) → s.rows[i]? = some Row.zero

structure FreshNames (s : VState α) : Prop where
  len : s.names.length = s.rows.length
  fwd : ∀ k i, IdxInv.Rel s k → s.indices.get? k = some i → s.names[i]? = some k
  bwd : ∀ i k, s.names[i]? = some k → IdxInv.Rel s k ∧ s.indices.get? k = some i

theorem sync_fresh [Zero α] {s : VState α} {n : Nat} (h : IdxInv s n) (hu : unindexed s = []) :
    ∃ s', s.dictToVector = .ok s' ∧ Fresh s' ∧ s'.params = s.params ∧ s'.indices = s.indices ∧
      s'.names = s.names ∧ s'.rows.length = n := by
  obtain ⟨s', h1, h2, h3, h4, h5, h6, h7⟩ := h.dictToVector
  have hn : s'.rows.length = n := by
    have := h.count; rw [hu] at this; simp at this; omega
  refine ⟨s', h1, ⟨?_, ?_, ?_, ?_⟩, h2, h3, h4, hn⟩
  · rw [hn]; exact h.congr h2 h3
  · rw [unindexed_congr h2 h3]; exact hu
  · intro k q i; rw [h2, h3]; exact h6 k q i
  · intro i; rw [h2, h3, h5]; exact h7 i

theorem names_fresh [Zero α] {s : VState α} (h : Fresh s) :
    ∃ s', s.vectorNames = .ok s' ∧ Fresh s' ∧ FreshNames s' ∧ s'.params = s.params ∧ s'.indices = s.indices ∧
      s'.rows = s.rows := by
  obtain ⟨s', h1, h2, h3, h4, h5⟩ := h.inv.vectorNames
  obtain ⟨a, b, c⟩ := h5 h.ui
  refine ⟨s', h1, ⟨?_, ?_, ?_, ?_⟩, ⟨?_, ?_, ?_⟩, h2, h3, h4⟩
  · rw [h4]; exact h.inv.congr h2 h3
  · rw [unindexed_congr h2 h3]; exact h.ui
  · intro k q i; rw [h2, h3, h4]; exact h.rows k q i
  · intro i; rw [h2, h3, h4]; exact h.blank i
  · rw [h4]; exact a
  · intro k i hk hi
    exact b k i (by unfold IdxInv.Rel at *; rwa [h2] at hk) (by rwa [h3] at hi)
  · intro i k hk
    obtain ⟨x, y⟩ := c i k hk
    exact ⟨by unfold IdxInv.Rel at *; rwa [h2], by rwa [h3]⟩

theorem UserParams.model [Zero α] {p : Params α} (h : UserParams p) :
    ∃ s, VState.init p = .ok s ∧ Fresh s ∧ FreshNames s ∧ s.params = p ∧ s.indices = initIndexDict p := by
  obtain ⟨hi, hu⟩ := h.good.inv [] []
  obtain ⟨s1, a1, a2, a3, a4, _, _⟩ := sync_fresh hi hu
  obtain ⟨s2, b1, b2, b3, b4, b5, b6⟩ := names_fresh a2
  refine ⟨s2, by simp only [VState.init, a1]; exact b1, b2, b3, b4.trans a3, b5.trans a4⟩

theorem likelihood_fresh [Zero α] {s : VState α} (h : IdxInv s s.rows.length)
    (extra decorr : List Key) (hk : ∀ k ∈ extra ++ decorr, ∀ p n, k ≠ .orb p n)
    (hu : ∀ k ∈ unindexed s, k ∈ extra ++ decorr) :
    ∃ s', s.addLikelihood extra decorr = .ok s' ∧ Fresh s' ∧ FreshNames s' ∧
      (∀ k, k ∈ s.params.items.keys → k ∈ s'.params.items.keys) ∧
      (∀ k ∈ extra ++ decorr, k ∈ s'.params.items.keys) ∧
      s'.params.numPlanets = s.params.numPlanets ∧ s'.params.basis = s.params.basis ∧
      (∀ k q, s.params.items.get? k = some q → s'.params.items.get? k = some q) := by
  have ho : ∀ k ∈ extra ++ decorr, k.isOrb = false := by
    intro k hk'
    cases k with
    | orb p n => exact absurd rfl (hk _ hk' p n)
    | _ => rfl
  obtain ⟨a1, a2, a3, a4, a5, a6, a7⟩ := addExtras_inv (extra ++ decorr) s s.rows.length h ho
  have hu' : unindexed ((extra ++ decorr).foldl addExtra (s, s.rows.length)).1 = [] := by
    rw [List.eq_nil_iff_forall_not_mem]
    intro k hk'
    obtain ⟨x, y⟩ := a4 k hk'
    exact y (hu k x)
  obtain ⟨s1, b1, b2, b3, b4, b5, b6⟩ := sync_fresh a1 hu'
  obtain ⟨s2, c1, c2, c3, c4, c5, c6⟩ := names_fresh b2
  refine ⟨s2, ?_, c2, c3, ?_, ?_, ?_, ?_, ?_⟩
  · simp only [VState.addLikelihood, b1]; exact c1
  · rw [c4, b3]; exact a2
  · rw [c4, b3]; exact a3
  · rw [c4, b3]; exact a5
  · rw [c4, b3]; exact a6
  · rw [c4, b3]; exact a7

/-! ### vector_to_dict -/

theorem readValues_spec (idx : Dict Key Nat) (rows : List (Row α)) (items : Dict Key (Parameter α))
    (hb : ∀ k ∈ items.keys, ∃ i, idx.get? k = some i ∧ i < rows.length) :
    ∃ items', readValues idx rows items = .ok items' ∧ items'.keys = items.keys ∧
      ∀ k q, items.get? k = some q → ∃ i r, idx.get? k = some i ∧ rows[i]? = some r ∧
        items'.get? k = some { q with value := r.value } := by
  induction items with
  | nil => exact ⟨[], rfl, rfl, by simp⟩
  | cons x t ih =>
    obtain ⟨k, q⟩ := x
    obtain ⟨t', h1, h2, h3⟩ := ih (fun k' hk' => hb k' (List.mem_cons_of_mem _ hk'))
    obtain ⟨i, hi, hlt⟩ := hb k (by simp [Dict.keys])
    have hr : rows[i]? = some rows[i] := List.getElem?_eq_getElem hlt
    refine ⟨(k, { q with value := rows[i].value }) :: t', ?_, ?_, ?_⟩
    · simp [readValues, hi, hr, h1]
    · simpa [Dict.keys] using h2
    · intro k' q' hq'
      simp only [Dict.get?_cons] at hq' ⊢
      split at hq'
      · next he =>
        subst he; cases hq'
        exact ⟨i, _, hi, hr, by simp⟩
      · next he =>
        obtain ⟨j, r, a, b, c⟩ := h3 k' q' hq'
        exact ⟨j, r, a, b, by simp [he, c]⟩

theorem toDict_spec {s : VState α} (h : IdxInv s s.rows.length) (hu : unindexed s = []) :
    ∃ s', s.vectorToDict = .ok s' ∧ s'.indices = s.indices ∧ s'.rows = s.rows ∧ s'.names = s.names ∧
      s'.params.items.keys = s.params.items.keys ∧ s'.params.numPlanets = s.params.numPlanets ∧
      s'.params.basis = s.params.basis ∧ s'.params.letters = s.params.letters ∧
      (∀ k q, s.params.items.get? k = some q → ∃ i r, s.indices.get? k = some i ∧ s.rows[i]? = some r ∧
        s'.params.items.get? k = some { q with value := r.value }) ∧
      IdxInv s' s'.rows.length ∧ unindexed s' = [] := by
  obtain ⟨items', h1, h2, h3⟩ := readValues_spec s.indices s.rows s.params.items (fun k hk => by
    obtain ⟨i, hi⟩ := h.indexed_of_not_mem hu (Or.inl hk)
    exact ⟨i, hi, h.bound (Or.inl hk) hi⟩)
  refine ⟨{ s with params := { s.params with items := items' } }, by simp [VState.vectorToDict, h1], rfl, rfl, rfl, h2, rfl, rfl, rfl, h3, ?_, ?_⟩
  · have hhas : ∀ k, items'.has k = s.params.items.has k := by
      intro k; rw [Bool.eq_iff_iff, Dict.has_iff, Dict.has_iff, h2]
    refine ⟨?_, h.five, ?_, h.orbIdx, h.dvdtIdx, h.curvIdx, ?_, h.extInj, h.size, ?_, ?_⟩
    · show items'.keys.Nodup; rw [h2]; exact h.nodup
    · intro p m; show _ ∈ items'.keys ↔ _; rw [h2]; exact h.orb p m
    · intro k i; show _ → _ → _ → _ ∈ items'.keys ∧ _; rw [h2]; exact h.ext k i
    · have hc := h.count
      unfold unindexed vectorSize at *
      simp only [h2, hhas]
      rw [← Dict.length_keys items', h2, Dict.length_keys]
      exact hc
    · intro k q hq
      change items'.get? k = some q at hq
      have hm : k ∈ s.params.items.keys := by rw [← h2]; exact Dict.mem_keys_of_get? _ hq
      obtain ⟨q0, hq0⟩ := Dict.exists_get?_of_mem _ hm
      obtain ⟨i, r, _, _, e⟩ := h3 k q0 hq0
      rw [e] at hq; cases hq
      exact h.noblank k q0 hq0
  · unfold unindexed; simp only [h2]; exact hu

/-- Every reachable state satisfies the index invariant with nothing left unindexed. -/
theorem Built.inv [Zero α] {s : VState α} (h : Built s) : IdxInv s s.rows.length ∧ unindexed s = [] := by
  induction h with
  | model p s h hs =>
    obtain ⟨s', h1, h2, h3, _⟩ := h.model
    rw [h1] at hs; cases hs
    exact ⟨h2.inv, h2.ui⟩
  | like s s' extra decorr h hk hs ih =>
    obtain ⟨s2, h1, h2, _⟩ := likelihood_fresh ih.1 extra decorr hk (by rw [ih.2]; simp)
    rw [h1] at hs; cases hs
    exact ⟨h2.inv, h2.ui⟩
  | edit s k v h hk hv ih =>
    have := ih.1.edit k v hk hv
    refine ⟨this, ?_⟩
    have hc := this.count
    have hc0 := ih.1.count
    rw [ih.2] at hc0
    have hvs : vectorSize (s.params.items.set k v) = vectorSize s.params.items := by
      rcases hk with hk | hk
      · exact vectorSize_set_of_mem _ _ _ hk
      · exact vectorSize_set_trend _ _ _ hk
    rw [← List.length_eq_zero_iff]
    change _ + _ = vectorSize (s.params.items.set k v) at hc
    simp at hc0
    omega
  | write s rows h hl ih =>
    refine ⟨?_, ih.2⟩
    show IdxInv _ rows.length
    rw [hl]; exact ih.1.congr rfl rfl
  | toVector s s' h hs ih =>
    obtain ⟨s2, h1, h2, _⟩ := sync_fresh ih.1 ih.2
    rw [h1] at hs; cases hs
    exact ⟨h2.inv, h2.ui⟩
  | toDict s s' h hs ih =>
    obtain ⟨s2, h1, _, _, _, _, _, _, _, _, h2⟩ := toDict_spec ih.1 ih.2
    rw [h1] at hs; cases hs
    exact h2

end Radvel
