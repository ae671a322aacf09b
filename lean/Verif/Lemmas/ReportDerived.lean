import Verif.Lemmas.Report
import Mathlib.Tactic.Linarith
import Mathlib.Tactic.FieldSimp
import Mathlib.Tactic.Ring

/-! # Lemmas on the derived parameters of the report -/

namespace Radvel

theorem median_scale (l : List ℝ) (c : ℝ) (hc : 0 ≤ c) : median (l.map (· * c)) = median l * c := by
  have hs : (l.map (· * c)).mergeSort (fun a b => decide (a ≤ b)) = (l.mergeSort (fun a b => decide (a ≤ b))).map (· * c) := by
    refine List.Perm.eq_of_pairwise (fun a b _ _ h1 h2 => le_antisymm h1 h2) ?_ ?_ ?_
    · have := List.pairwise_mergeSort (le := fun a b : ℝ => decide (a ≤ b)) (fun a b c h1 h2 => by simp only [decide_eq_true_eq] at *; linarith) (fun a b => by simp only [Bool.or_eq_true, decide_eq_true_eq]; exact le_total a b) (l.map (· * c))
      simpa using this
    · have := List.pairwise_mergeSort (le := fun a b : ℝ => decide (a ≤ b)) (fun a b c h1 h2 => by simp only [decide_eq_true_eq] at *; linarith) (fun a b => by simp only [Bool.or_eq_true, decide_eq_true_eq]; exact le_total a b) l
      rw [List.pairwise_map]
      refine this.imp fun h => ?_
      simp only [decide_eq_true_eq] at h
      exact mul_le_mul_of_nonneg_right h hc
    · exact (List.mergeSort_perm _ _).trans ((List.mergeSort_perm _ _).symm.map _)
  have hg : ∀ (l : List ℝ) (i : Nat), (l.map (· * c)).getD i 0 = l.getD i 0 * c := by
    intro l i
    simp only [List.getD_eq_getElem?_getD, List.getElem?_map]
    rcases l[i]? with _ | x <;> simp
  unfold median
  simp only [hs, List.length_map, hg]
  split_ifs
  · rfl
  · ring

theorem colMedian_scale (col : List (Option ℝ)) (c : ℝ) (hc : 0 ≤ c) : colMedian (col.map fun x => x.map (· * c)) = colMedian col * c := by
  unfold colMedian
  rw [← median_scale _ _ hc, List.map_map, List.map_map]
  congr 1
  refine List.map_congr_left fun x _ => ?_
  rcases x with _ | x <;> simp

theorem digits_inj (m n : Nat) (h : digits m = digits n) : m = n := by
  have := congrArg (fun l => Nat.ofDigitChars 10 l 0) h
  simpa [digits, Nat.ofDigitChars_toDigits] using this

/-- The label of a derived parameter determines key and planet. -/
theorem label_inj (k k' : Text) (hk : k ∈ derivedKeys) (hk' : k' ∈ derivedKeys) (n n' : Nat) (h : k ++ digits n = k' ++ digits n') : k = k' ∧ n = n' := by
  have hkk : k = k' := by
    have := congrArg List.head? h
    simp only [derivedKeys, List.mem_cons, List.not_mem_nil, or_false] at hk hk'
    rcases hk with rfl | rfl | rfl <;> rcases hk' with rfl | rfl | rfl <;> first | rfl | (exfalso; simp at this)
  subst hkk
  exact ⟨rfl, digits_inj _ _ (List.append_cancel_left h)⟩

theorem dropLast_label (k : Text) (n : Nat) (hn : n ≤ 9) : (k ++ digits n).dropLast = k := by
  have : ∃ d, digits n = [d] := by
    have : n ∈ List.range 10 := List.mem_range.2 (by omega)
    revert this
    have : ∀ n ∈ List.range 10, (digits n).length = 1 := by decide
    intro h
    exact List.length_eq_one_iff.1 (this n h)
  obtain ⟨d, hd⟩ := this
  rw [hd]; simp

/-- A step changes no other column. -/
theorem derivedStep_other (s : Samples) (n : Nat) (key q : Text) (h : q ≠ key ++ digits n) : (derivedStep s n key).1.get? q = s.get? q := by
  unfold derivedStep
  simp only
  split_ifs
  · exact Dict.get?_set_ne _ _ (Ne.symm h)
  all_goals rfl

/-- What a step does to its own column. -/
theorem derivedStep_self (s : Samples) (n : Nat) (key : Text) : (derivedStep s n key).1.get? (key ++ digits n) =
    if shown s (key ++ digits n) = true ∧ key = "mpsini".toList then
      some (((s.get? (key ++ digits n)).getD []).map fun x => x.map (· * (massUnit (colMedian ((s.get? (key ++ digits n)).getD []))).2)) else s.get? (key ++ digits n) := by
  unfold derivedStep
  simp only
  by_cases h1 : shown s (key ++ digits n) = true
  · by_cases h2 : key = "mpsini".toList
    · rw [if_pos h1, if_pos h2, if_pos ⟨h1, h2⟩, Dict.get?_set_self]
    · rw [if_pos h1, if_neg h2, if_neg (c := shown s (key ++ digits n) = true ∧ key = "mpsini".toList) (fun h => h2 h.2)]
  · rw [if_neg h1, if_neg (fun h => h1 h.1)]

theorem shown_congr (s s' : Samples) (q : Text) (h : s.get? q = s'.get? q) : shown s q = shown s' q := by unfold shown; rw [h]

/-- The loop leaves other columns alone. -/
theorem derivedLoop_other (l : List (Nat × Text)) (s : Samples) (q : Text) (h : ∀ x ∈ l, q ≠ x.2 ++ digits x.1) : (derivedLoop l s).1.get? q = s.get? q := by
  induction l generalizing s with
  | nil => rfl
  | cons x l ih =>
    obtain ⟨n, key⟩ := x
    simp only [derivedLoop]
    rw [ih _ (fun x hx => h x (List.mem_cons_of_mem _ hx)), derivedStep_other _ _ _ _ (h (n, key) (List.mem_cons_self ..))]

/-- The label and unit made for a key, from the samples as they were. -/
noncomputable def derivedLabelOf (s : Samples) (n : Nat) (key : Text) : Option (Text × DerivedUnit) :=
  if shown s (key ++ digits n) then
    some (key ++ digits n, if key = "mpsini".toList then (massUnit (colMedian ((s.get? (key ++ digits n)).getD []))).1 else if key = "rhop".toList then .density else .au) else none

theorem derivedStep_label (s : Samples) (n : Nat) (key : Text) : (derivedStep s n key).2 = derivedLabelOf s n key := by
  unfold derivedStep derivedLabelOf
  simp only
  split_ifs <;> rfl

theorem derivedLoop_labels (l : List (Nat × Text)) (s : Samples) (hnd : (l.map fun x => x.2 ++ digits x.1).Nodup) : (derivedLoop l s).2 = l.filterMap fun x => derivedLabelOf s x.1 x.2 := by
  induction l generalizing s with
  | nil => rfl
  | cons x l ih =>
    obtain ⟨n, key⟩ := x
    rw [List.map_cons, List.nodup_cons] at hnd
    simp only [derivedLoop]
    rw [ih _ hnd.2, derivedStep_label, List.filterMap_cons]
    have hc : l.filterMap (fun x => derivedLabelOf (derivedStep s n key).1 x.1 x.2) = l.filterMap fun x => derivedLabelOf s x.1 x.2 := by
      refine List.filterMap_congr fun x hx => ?_
      have hne : x.2 ++ digits x.1 ≠ key ++ digits n := fun h => hnd.1 (List.mem_map.2 ⟨x, hx, h⟩)
      have := derivedStep_other s n key _ hne
      unfold derivedLabelOf
      rw [this, shown_congr _ _ _ this]
    rw [hc]
    rcases derivedLabelOf s n key <;> rfl

theorem derivedLoop_self (l : List (Nat × Text)) (s : Samples) (hnd : (l.map fun x => x.2 ++ digits x.1).Nodup) (n : Nat) (key : Text) (h : (n, key) ∈ l) :
    (derivedLoop l s).1.get? (key ++ digits n) = (derivedStep s n key).1.get? (key ++ digits n) := by
  induction l generalizing s with
  | nil => cases h
  | cons x l ih =>
    obtain ⟨n', key'⟩ := x
    rw [List.map_cons, List.nodup_cons] at hnd
    simp only [derivedLoop]
    rcases List.mem_cons.1 h with h | h
    · cases h
      rw [derivedLoop_other _ _ _ fun x hx h => hnd.1 (List.mem_map.2 ⟨x, hx, h.symm⟩)]
    · rw [ih _ hnd.2 h]
      have hne : key ++ digits n ≠ key' ++ digits n' := fun he => hnd.1 (List.mem_map.2 ⟨(n, key), h, he⟩)
      have := derivedStep_other s n' key' _ hne
      rw [derivedStep_self, derivedStep_self, this, shown_congr _ _ _ this]

/-- The planets and keys of `derivedPlot`. -/
theorem mem_pairs (N n : Nat) (k : Text) : (n, k) ∈ ((List.range N).flatMap fun i => derivedKeys.map fun k => (i + 1, k)) ↔ 1 ≤ n ∧ n ≤ N ∧ k ∈ derivedKeys := by
  simp only [List.mem_flatMap, List.mem_range, List.mem_map, Prod.mk.injEq]
  constructor
  · rintro ⟨i, hi, k', hk', rfl, rfl⟩; exact ⟨by omega, by omega, hk'⟩
  · rintro ⟨h1, h2, h3⟩; exact ⟨n - 1, by omega, k, h3, by omega, rfl⟩

theorem nodup_pairs (N : Nat) : ((List.range N).flatMap fun i => derivedKeys.map fun k => (i + 1, k)).Nodup := by
  rw [List.nodup_flatMap]
  refine ⟨fun i _ => ?_, ?_⟩
  · refine List.Nodup.map (fun a b h => (Prod.mk.inj h).2) (by decide)
  · refine (List.nodup_range (n := N)).imp fun hne => ?_
    intro x h1 h2
    simp only [List.mem_map] at h1 h2
    obtain ⟨_, _, rfl⟩ := h1
    obtain ⟨_, _, h⟩ := h2
    have := (Prod.mk.inj h).1
    omega

theorem nodup_labels (N : Nat) : (((List.range N).flatMap fun i => derivedKeys.map fun k => (i + 1, k)).map fun x => x.2 ++ digits x.1).Nodup := by
  refine List.Nodup.map_on ?_ (nodup_pairs N)
  rintro ⟨n, k⟩ h1 ⟨n', k'⟩ h2 h
  obtain ⟨_, _, h1⟩ := (mem_pairs _ _ _).1 h1
  obtain ⟨_, _, h2⟩ := (mem_pairs _ _ _).1 h2
  obtain ⟨a, b⟩ := label_inj _ _ h1 h2 _ _ h
  exact Prod.ext b a

theorem mem_derivedPlot_labels (N : Nat) (s : Samples) (q : Text) (u : DerivedUnit) : (q, u) ∈ (derivedPlot N s).2 ↔
    ∃ n k, 1 ≤ n ∧ n ≤ N ∧ k ∈ derivedKeys ∧ q = k ++ digits n ∧ shown s q = true ∧ u = if k = "mpsini".toList then (massUnit (colMedian ((s.get? q).getD []))).1 else if k = "rhop".toList then .density else .au := by
  unfold derivedPlot
  rw [derivedLoop_labels _ _ (nodup_labels N), List.mem_filterMap]
  constructor
  · rintro ⟨⟨n, k⟩, hm, h⟩
    obtain ⟨h1, h2, h3⟩ := (mem_pairs _ _ _).1 hm
    unfold derivedLabelOf at h
    by_cases hs : shown s (k ++ digits n) = true
    · rw [if_pos hs] at h
      obtain ⟨h4, h5⟩ := Prod.mk.inj (Option.some.inj h)
      subst h4
      exact ⟨n, k, h1, h2, h3, rfl, hs, h5.symm⟩
    · rw [if_neg hs] at h; cases h
  · rintro ⟨n, k, h1, h2, h3, rfl, hs, rfl⟩
    refine ⟨(n, k), (mem_pairs _ _ _).2 ⟨h1, h2, h3⟩, ?_⟩
    unfold derivedLabelOf
    rw [if_pos hs]

theorem mem_dedup_foldr (l : List Text) (q : Text) : q ∈ l.foldr (fun a acc => if a ∈ acc then acc else a :: acc) [] ↔ q ∈ l := by
  induction l with
  | nil => rfl
  | cons a l ih =>
    rw [List.foldr_cons]
    split_ifs with h
    · rw [ih, List.mem_cons]
      constructor
      · exact Or.inr
      · rintro (rfl | h')
        · exact ih.1 h
        · exact h'
    · rw [List.mem_cons, List.mem_cons, ih]

theorem nodup_dedup_foldr (l : List Text) : (l.foldr (fun a acc => if a ∈ acc then acc else a :: acc) []).Nodup := by
  induction l with
  | nil => exact List.nodup_nil
  | cons a l ih =>
    rw [List.foldr_cons]
    split_ifs with h
    · exact ih
    · exact List.nodup_cons.2 ⟨h, ih⟩

end Radvel
