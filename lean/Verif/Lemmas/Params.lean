import Verif.Model.Like
import Verif.Lemmas.Dict
import Mathlib.Data.Finset.Card
import Mathlib.Data.List.Nodup
import Mathlib.Data.Finset.Range
import Mathlib.Tactic.Common

namespace Radvel

variable {α : Type}

/-! ### lists -/

theorem mem_of_nodup_length {l : List Nat} {n : Nat} (hn : l.Nodup) (hb : ∀ i ∈ l, i < n)
    (hl : l.length = n) : ∀ i, i < n → i ∈ l := by
  have h : l.toFinset = Finset.range n := by
    apply Finset.eq_of_subset_of_card_le
    · intro i hi; rw [Finset.mem_range]; exact hb i (by simpa using hi)
    · rw [List.toFinset_card_of_nodup hn, hl, Finset.card_range]
  intro i hi
  have : i ∈ l.toFinset := by rw [h, Finset.mem_range]; exact hi
  simpa using this

theorem filter_change_one {κ : Type} [DecidableEq κ] (l : List κ) (hn : l.Nodup) (p q : κ → Bool) (k : κ) (hk : k ∈ l)
    (hp : p k = true) (hq : q k = false) (hpq : ∀ x, x ≠ k → p x = q x) :
    (l.filter q).length + 1 = (l.filter p).length := by
  induction l with
  | nil => simp at hk
  | cons a t ih =>
    rw [List.nodup_cons] at hn
    by_cases hak : a = k
    · subst hak
      have : t.filter p = t.filter q := by
        apply List.filter_congr
        intro x hx
        exact hpq x (fun h => hn.1 (h ▸ hx))
      simp [hp, hq, this]
    · have hk' : k ∈ t := by
        rcases List.mem_cons.1 hk with h | h
        · exact absurd h.symm hak
        · exact h
      have := ih hn.2 hk'
      rw [List.filter_cons, List.filter_cons, hpq a hak]
      split
      · simp only [List.length_cons]; omega
      · exact this

theorem filterMap_id_prefix {κ : Type} (ns : List (Option κ)) (L : Nat) (hL : L ≤ ns.length)
    (h1 : ∀ i : Nat, i < L → ∃ k, ns[i]? = some (some k)) (h2 : ∀ i : Nat, L ≤ i → (ns[i]?).join = none) :
    (ns.filterMap id).length = L ∧ ∀ i : Nat, (ns.filterMap id)[i]? = ns[i]?.join := by
  induction ns generalizing L with
  | nil => simp at hL; subst hL; simp
  | cons a t ih =>
    cases L with
    | zero =>
      have ha : a = none := by have := h2 0 (by omega); simpa using this
      subst ha
      have := ih 0 (by omega) (by intro i hi; omega) (by
        intro i _; have := h2 (i + 1) (by omega); simpa using this)
      simp only [List.filterMap_cons, id_eq]
      have hnil : List.filterMap id t = [] := List.length_eq_zero_iff.1 this.1
      have e2 : List.filterMap (fun x : Option κ => x) t = [] := hnil
      refine ⟨by simp [e2], ?_⟩
      intro i
      cases i with
      | zero => simp [e2]
      | succ i => have := h2 (i + 1) (by omega); simp [e2]; simpa using this.symm
    | succ L =>
      obtain ⟨k, hk⟩ := h1 0 (by omega)
      have ha : a = some k := by simpa using hk
      subst ha
      have := ih L (by simpa using hL) (by
          intro i hi; have := h1 (i + 1) (by omega); simpa using this) (by
        intro i hi; have := h2 (i + 1) (by omega); simpa using this)
      simp only [List.filterMap_cons, id_eq]
      refine ⟨by simpa using this.1, ?_⟩
      intro i
      cases i with
      | zero => simp
      | succ i => simpa using this.2 i

/-! ### rows -/

/-- The row of a parameter whose vary flag is a Boolean. -/
def mkRow [Zero α] (q : Parameter α) : Row α :=
  { value := q.value, vary := decide (q.vary = .yes), scale := q.mcmcscale.getD 0, linear := q.linear }

theorem rowOf_ok [Zero α] {q : Parameter α} (h : q.vary ≠ .blank) : rowOf q = .ok (mkRow q) := by
  unfold rowOf mkRow
  cases hv : q.vary
  · rfl
  · rfl
  · exact absurd hv h

theorem fillRows_spec [Zero α] (idx : Dict Key Nat) (items : Dict Key (Parameter α)) (rows : List (Row α))
    (hn : items.keys.Nodup) (hb : ∀ k ∈ items.keys, ∀ i, idx.get? k = some i → i < rows.length)
    (hinj : ∀ k ∈ items.keys, ∀ k' ∈ items.keys, ∀ i, idx.get? k = some i → idx.get? k' = some i → k = k')
    (hv : ∀ x ∈ items, x.2.vary ≠ .blank) :
    ∃ rows', fillRows idx items rows = .ok rows' ∧ rows'.length = rows.length ∧
      (∀ x ∈ items, ∀ i, idx.get? x.1 = some i → rows'[i]? = some (mkRow x.2)) ∧
      (∀ i, (∀ k ∈ items.keys, idx.get? k ≠ some i) → rows'[i]? = rows[i]?) := by
  induction items generalizing rows with
  | nil => exact ⟨rows, rfl, rfl, by simp, by simp⟩
  | cons x t ih =>
    obtain ⟨k, q⟩ := x
    have hn' : k ∉ Dict.keys t ∧ (Dict.keys t).Nodup := by simpa [Dict.keys] using hn
    have hmem : ∀ k' ∈ Dict.keys t, k' ∈ Dict.keys ((k, q) :: t) := fun k' h => List.mem_cons_of_mem _ h
    have hkmem : k ∈ Dict.keys ((k, q) :: t) := by simp [Dict.keys]
    cases hk : Dict.get? idx k with
    | none =>
      obtain ⟨rows', h1, h2, h3, h4⟩ := ih rows hn'.2 (fun k' h => hb k' (hmem k' h))
        (fun a ha b hb' => hinj a (hmem a ha) b (hmem b hb')) (fun x hx => hv x (List.mem_cons_of_mem _ hx))
      refine ⟨rows', by simp [fillRows, hk, h1], h2, ?_, ?_⟩
      · intro x hx i hi
        rcases List.mem_cons.1 hx with h | h
        · subst h; rw [hk] at hi; cases hi
        · exact h3 x h i hi
      · intro i hi; exact h4 i (fun k' h => hi k' (hmem k' h))
    | some j =>
      have hj : j < rows.length := hb k hkmem j hk
      obtain ⟨rows', h1, h2, h3, h4⟩ := ih (rows.set j (mkRow q)) hn'.2
        (fun k' h => by simpa using hb k' (hmem k' h))
        (fun a ha b hb' => hinj a (hmem a ha) b (hmem b hb')) (fun x hx => hv x (List.mem_cons_of_mem _ hx))
      have hq : q.vary ≠ .blank := hv (k, q) (by simp)
      refine ⟨rows', by simp [fillRows, hk, hj, rowOf_ok hq, h1], by simpa using h2, ?_, ?_⟩
      · intro x hx i hi
        rcases List.mem_cons.1 hx with h | h
        · subst h
          simp only at hi
          rw [hk] at hi; cases hi
          rw [h4 j]
          · simp [hj]
          · intro k' hk' hc
            have := hinj k hkmem k' (hmem k' hk') j hk hc
            exact hn'.1 (this ▸ hk')
        · exact h3 x h i hi
      · intro i hi
        rw [h4 i (fun k' h => hi k' (hmem k' h))]
        have : j ≠ i := fun h => hi k hkmem (h ▸ hk)
        simp [this]

theorem fillNames_spec (idx : Dict Key Nat) (ks : List Key) (ns : List (Option Key))
    (hn : ks.Nodup) (hb : ∀ k ∈ ks, ∀ i, idx.get? k = some i → i < ns.length)
    (hinj : ∀ k ∈ ks, ∀ k' ∈ ks, ∀ i, idx.get? k = some i → idx.get? k' = some i → k = k') :
    ∃ ns', fillNames idx ks ns = .ok ns' ∧ ns'.length = ns.length ∧
      (∀ k ∈ ks, ∀ i, idx.get? k = some i → ns'[i]? = some (some k)) ∧
      (∀ i, (∀ k ∈ ks, idx.get? k ≠ some i) → ns'[i]? = ns[i]?) := by
  induction ks generalizing ns with
  | nil => exact ⟨ns, rfl, rfl, by simp, by simp⟩
  | cons k t ih =>
    rw [List.nodup_cons] at hn
    have hmem : ∀ k' ∈ t, k' ∈ k :: t := fun k' h => List.mem_cons_of_mem _ h
    have hkmem : k ∈ k :: t := by simp
    cases hk : Dict.get? idx k with
    | none =>
      obtain ⟨ns', h1, h2, h3, h4⟩ := ih ns hn.2 (fun k' h => hb k' (hmem k' h))
        (fun a ha b hb' => hinj a (hmem a ha) b (hmem b hb'))
      refine ⟨ns', by simp [fillNames, hk, h1], h2, ?_, ?_⟩
      · intro x hx i hi
        rcases List.mem_cons.1 hx with h | h
        · subst h; rw [hk] at hi; cases hi
        · exact h3 x h i hi
      · intro i hi; exact h4 i (fun k' h => hi k' (hmem k' h))
    | some j =>
      have hj : j < ns.length := hb k hkmem j hk
      obtain ⟨ns', h1, h2, h3, h4⟩ := ih (ns.set j (some k)) hn.2
        (fun k' h => by simpa using hb k' (hmem k' h))
        (fun a ha b hb' => hinj a (hmem a ha) b (hmem b hb'))
      refine ⟨ns', by simp [fillNames, hk, hj, h1], by simpa using h2, ?_, ?_⟩
      · intro x hx i hi
        rcases List.mem_cons.1 hx with h | h
        · subst h
          rw [hk] at hi; cases hi
          rw [h4 j]
          · simp [hj]
          · intro k' hk' hc
            have := hinj x hkmem k' (hmem k' hk') j hk hc
            exact hn.1 (this ▸ hk')
        · exact h3 x h i hi
      · intro i hi
        rw [h4 i (fun k' h => hi k' (hmem k' h))]
        have : j ≠ i := fun h => hi k hkmem (h ▸ hk)
        simp [this]

/-! ### keys -/

/-- Orbital keys. -/
def Key.isOrb : Key → Bool
  | .orb _ _ => true
  | _ => false

/-- Trend keys. -/
def Key.isTrend : Key → Bool
  | .dvdt => true
  | .curv => true
  | _ => false

def Key.isInst : Key → Bool
  | .inst _ _ => true
  | _ => false

theorem offset_lt (p : PName) : p.offset < 5 := by cases p <;> decide

theorem offset_inj_words (b : BasisName) (hb : b ≠ .perTcTpEWK) (p q : PName) (hp : p ∈ b.words)
    (hq : q ∈ b.words) (h : p.offset = q.offset) : p = q := by
  revert p q
  cases b <;> first | exact absurd rfl hb | (intro p q; cases p <;> cases q <;> decide)

theorem words_length (b : BasisName) (hb : b ≠ .perTcTpEWK) : b.words.length = 5 := by
  cases b <;> first | rfl | exact absurd rfl hb

theorem words_nodup (b : BasisName) : b.words.Nodup := by cases b <;> decide

theorem mem_defaultKeys (N : Nat) (ws : List PName) (k : Key) :
    k ∈ defaultKeys N ws ↔ ∃ p m, k = .orb p m ∧ p ∈ ws ∧ 1 ≤ m ∧ m ≤ N := by
  unfold defaultKeys
  simp only [List.mem_flatMap, List.mem_range, List.mem_map]
  constructor
  · rintro ⟨i, hi, p, hp, rfl⟩; exact ⟨p, i + 1, rfl, hp, by omega, by omega⟩
  · rintro ⟨p, m, rfl, hp, h1, h2⟩
    exact ⟨m - 1, by omega, p, hp, by congr 1; omega⟩

theorem nodup_defaultKeys (N : Nat) (ws : List PName) (h : ws.Nodup) : (defaultKeys N ws).Nodup := by
  unfold defaultKeys
  rw [List.nodup_flatMap]
  refine ⟨?_, ?_⟩
  · intro i _
    exact h.map (fun a b hab => by simpa using hab)
  · refine List.nodup_range.imp ?_
    intro i j hij k hk hk'
    simp only [List.mem_map] at hk hk'
    obtain ⟨p, _, rfl⟩ := hk
    obtain ⟨q, _, h⟩ := hk'
    simp at h
    omega

theorem length_defaultKeys (N : Nat) (ws : List PName) : (defaultKeys N ws).length = N * ws.length := by
  unfold defaultKeys
  rw [List.length_flatMap]
  simp

end Radvel
