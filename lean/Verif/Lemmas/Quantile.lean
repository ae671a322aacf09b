import Verif.Model.Chains
import Verif.Props.Numbers
import Mathlib.Data.List.Perm.Basic

/-! Lemmas on quantiles. -/

namespace Radvel
open Real

theorem pos_bounds {L : Nat} (hL : 0 < L) {q : ℝ} (h0 : 0 ≤ q) (h1 : q ≤ 1) : 0 ≤ ((L : ℝ) - 1) * q ∧ ((L : ℝ) - 1) * q ≤ L - 1 := by
  have : (1 : ℝ) ≤ L := by exact_mod_cast hL
  constructor
  · exact mul_nonneg (by linarith) h0
  · nlinarith

theorem floor_pos_lt {L : Nat} (hL : 0 < L) {q : ℝ} (h0 : 0 ≤ q) (h1 : q ≤ 1) : ⌊((L : ℝ) - 1) * q⌋₊ < L := by
  obtain ⟨a, b⟩ := pos_bounds hL h0 h1
  rw [Nat.floor_lt a]
  linarith

/-- The interpolated value at position `t`. -/
noncomputable def interp (s : List ℝ) (t : ℝ) : ℝ := s.getD ⌊t⌋₊ 0 + (s.getD (⌊t⌋₊ + 1) (s.getD ⌊t⌋₊ 0) - s.getD ⌊t⌋₊ 0) * (t - ⌊t⌋₊)

theorem quantileSorted_eq (s : List ℝ) (hs : s ≠ []) {q : ℝ} (h0 : 0 ≤ q) (h1 : q ≤ 1) : quantileSorted s q = some (interp s (((s.length : ℝ) - 1) * q)) := by
  have hL : 0 < s.length := List.length_pos_iff.2 hs
  have hf := floor_pos_lt hL h0 h1
  unfold quantileSorted interp
  simp only [List.getElem?_eq_getElem hf]
  have : s.getD ⌊((s.length : ℝ) - 1) * q⌋₊ 0 = s[⌊((s.length : ℝ) - 1) * q⌋₊] := by
    rw [List.getD, List.getElem?_eq_getElem hf]; rfl
  rw [this]

theorem getD_lt {s : List ℝ} {i : Nat} (h : i < s.length) (a b : ℝ) : s.getD i a = s.getD i b := by
  simp [List.getD, List.getElem?_eq_getElem h]

theorem getD_next (s : List ℝ) (hs : s.Pairwise (· ≤ ·)) (i : Nat) (hi : i < s.length) : s.getD i 0 ≤ s.getD (i + 1) (s.getD i 0) := by
  by_cases h : i + 1 < s.length
  · have : s.getD (i + 1) (s.getD i 0) = s.getD (i + 1) 0 := getD_lt h _ _
    rw [this]
    exact sorted_getD hs (Nat.le_succ i) h
  · have : s.getD (i + 1) (s.getD i 0) = s.getD i 0 := by
      rw [List.getD, List.getElem?_eq_none (by omega)]; rfl
    rw [this]

theorem interp_ge (s : List ℝ) (hs : s.Pairwise (· ≤ ·)) (t : ℝ) (h0 : 0 ≤ t) (hf : ⌊t⌋₊ < s.length) : s.getD ⌊t⌋₊ 0 ≤ interp s t ∧ interp s t ≤ s.getD (⌊t⌋₊ + 1) (s.getD ⌊t⌋₊ 0) := by
  have h1 := getD_next s hs _ hf
  have h2 := Nat.floor_le h0
  have h3 := Nat.lt_floor_add_one t
  unfold interp
  constructor <;> nlinarith

theorem interp_mono (s : List ℝ) (hs : s.Pairwise (· ≤ ·)) (t t' : ℝ) (h0 : 0 ≤ t) (h : t ≤ t') (hf : ⌊t'⌋₊ < s.length) : interp s t ≤ interp s t' := by
  have hfl : ⌊t⌋₊ ≤ ⌊t'⌋₊ := Nat.floor_le_floor h
  rcases hfl.lt_or_eq with hlt | heq
  · have h1 := (interp_ge s hs t h0 (by omega)).2
    have h2 := (interp_ge s hs t' (by linarith) hf).1
    have h3 : s.getD (⌊t⌋₊ + 1) (s.getD ⌊t⌋₊ 0) = s.getD (⌊t⌋₊ + 1) 0 := getD_lt (by omega) _ _
    have h4 := sorted_getD hs (show ⌊t⌋₊ + 1 ≤ ⌊t'⌋₊ by omega) hf
    linarith
  · have h1 := getD_next s hs _ hf
    unfold interp
    rw [heq]
    nlinarith

/-- Sorted numbers of a column. -/
noncomputable def sortedCol {n : Nat} (col : Fin n → Option ℝ) : List ℝ := ((List.ofFn col).reduceOption).mergeSort (fun a b => decide (a ≤ b))

theorem sortedCol_perm {n : Nat} (col : Fin n → Option ℝ) : (sortedCol col).Perm (List.ofFn col).reduceOption := List.mergeSort_perm _ _

theorem sortedCol_sorted {n : Nat} (col : Fin n → Option ℝ) : (sortedCol col).Pairwise (· ≤ ·) := sorted_mergeSort _

theorem mem_sortedCol {n : Nat} (col : Fin n → Option ℝ) (x : ℝ) : x ∈ sortedCol col ↔ ∃ j, col j = some x := by
  rw [(sortedCol_perm col).mem_iff]
  unfold List.reduceOption
  rw [List.mem_filterMap]
  constructor
  · rintro ⟨a, h1, h2⟩
    obtain ⟨j, rfl⟩ := List.mem_ofFn.1 h1
    exact ⟨j, h2⟩
  · rintro ⟨j, hj⟩
    exact ⟨col j, List.mem_ofFn.2 ⟨j, rfl⟩, hj⟩

theorem sortedCol_ne {n : Nat} (col : Fin n → Option ℝ) (h : ∃ j x, col j = some x) : sortedCol col ≠ [] := by
  obtain ⟨j, x, hx⟩ := h
  exact List.ne_nil_of_mem ((mem_sortedCol col x).2 ⟨j, hx⟩)

theorem quantile_eq {n : Nat} (col : Fin n → Option ℝ) (h : ∃ j x, col j = some x) {q : ℝ} (h0 : 0 ≤ q) (h1 : q ≤ 1) :
    quantile col q = some (interp (sortedCol col) ((((sortedCol col).length : ℝ) - 1) * q)) := quantileSorted_eq _ (sortedCol_ne col h) h0 h1

theorem quantile_none {n : Nat} (col : Fin n → Option ℝ) (h : ∀ j, col j = none) (q : ℝ) : quantile col q = none := by
  have : sortedCol col = [] := by
    rw [List.eq_nil_iff_forall_not_mem]
    intro x hx
    obtain ⟨j, hj⟩ := (mem_sortedCol col x).1 hx
    rw [h j] at hj; cases hj
  change quantileSorted (sortedCol col) q = none
  rw [this]
  rfl

theorem quantile_mono {n : Nat} (col : Fin n → Option ℝ) {q q' x x' : ℝ} (h0 : 0 ≤ q) (hq : q ≤ q') (h1 : q' ≤ 1) (hx : quantile col q = some x) (hx' : quantile col q' = some x') : x ≤ x' := by
  have hne : ∃ j x, col j = some x := by
    by_contra hc
    push Not at hc
    rw [quantile_none col (fun j => by
      rcases h : col j with _ | y
      · rfl
      · exact absurd h (hc j y))] at hx
    cases hx
  rw [quantile_eq col hne h0 (by linarith)] at hx
  rw [quantile_eq col hne (by linarith) h1] at hx'
  cases hx; cases hx'
  have hL : 0 < (sortedCol col).length := List.length_pos_iff.2 (sortedCol_ne col hne)
  have : (1 : ℝ) ≤ (sortedCol col).length := by exact_mod_cast hL
  exact interp_mono _ (sortedCol_sorted col) _ _ (pos_bounds hL h0 (by linarith)).1 (mul_le_mul_of_nonneg_left hq (by linarith)) (floor_pos_lt hL (by linarith) h1)

theorem getD_mem {s : List ℝ} {i : Nat} (hi : i < s.length) : s.getD i 0 ∈ s := by
  rw [List.getD, List.getElem?_eq_getElem hi]
  exact List.getElem_mem hi

theorem quantile_const {n : Nat} (col : Fin n → Option ℝ) (v : ℝ) (hn : 0 < n) (h : ∀ j, col j = some v) {q : ℝ} (h0 : 0 ≤ q) (h1 : q ≤ 1) : quantile col q = some v := by
  have hne : ∃ j x, col j = some x := ⟨⟨0, hn⟩, v, h _⟩
  rw [quantile_eq col hne h0 h1]
  have hL : 0 < (sortedCol col).length := List.length_pos_iff.2 (sortedCol_ne col hne)
  have hf := floor_pos_lt hL h0 h1
  have hv : ∀ i, i < (sortedCol col).length → (sortedCol col).getD i 0 = v := by
    intro i hi
    obtain ⟨j, hj⟩ := (mem_sortedCol col _).1 (getD_mem hi)
    rw [h j] at hj
    exact (Option.some.inj hj).symm
  obtain ⟨a, b⟩ := interp_ge _ (sortedCol_sorted col) _ (pos_bounds hL h0 h1).1 hf
  rw [hv _ hf] at a b
  congr 1
  have : (sortedCol col).getD (⌊(((sortedCol col).length : ℝ) - 1) * q⌋₊ + 1) v = v := by
    by_cases hi : ⌊(((sortedCol col).length : ℝ) - 1) * q⌋₊ + 1 < (sortedCol col).length
    · have := hv _ hi
      rw [List.getD, List.getElem?_eq_getElem hi] at this ⊢
      exact this
    · rw [List.getD, List.getElem?_eq_none (by omega)]; rfl
  rw [this] at b
  linarith

theorem sortedCol_reorder {n : Nat} (σ : Equiv.Perm (Fin n)) (col : Fin n → Option ℝ) : sortedCol (fun j => col (σ j)) = sortedCol col := by
  refine List.Perm.eq_of_pairwise (le := (· ≤ ·)) (fun a b _ _ h1 h2 => le_antisymm h1 h2) (sortedCol_sorted _) (sortedCol_sorted _) ?_
  refine (sortedCol_perm _).trans (List.Perm.trans ?_ (sortedCol_perm _).symm)
  unfold List.reduceOption
  exact (Equiv.Perm.ofFn_comp_perm σ col).filterMap _

theorem quantile_reorder {n : Nat} (σ : Equiv.Perm (Fin n)) (col : Fin n → Option ℝ) (q : ℝ) : quantile (fun j => col (σ j)) q = quantile col q := by
  change quantileSorted (sortedCol _) q = quantileSorted (sortedCol _) q
  rw [sortedCol_reorder]

/-- How many numbers of a column are at most, and at least, its quantile. -/
theorem quantile_count {n : Nat} (col : Fin n → Option ℝ) {q x : ℝ} (h0 : 0 ≤ q) (h1 : q ≤ 1) (hx : quantile col q = some x) :
    (((List.ofFn col).reduceOption.length : ℝ) - 1) * q < ((List.ofFn col).reduceOption.filter (fun y => decide (y ≤ x))).length ∧
    (((List.ofFn col).reduceOption.length : ℝ) - 1) * (1 - q) < ((List.ofFn col).reduceOption.filter (fun y => decide (x ≤ y))).length := by
  have hne : ∃ j x, col j = some x := by
    by_contra hc
    push Not at hc
    rw [quantile_none col (fun j => by
      rcases h : col j with _ | y
      · rfl
      · exact absurd h (hc j y))] at hx
    cases hx
  rw [quantile_eq col hne h0 h1] at hx
  have hx := Option.some.inj hx
  have hp := sortedCol_perm col
  rw [← hp.length_eq, ← (hp.filter _).length_eq, ← (hp.filter _).length_eq]
  have hs := sortedCol_sorted col
  have hL : 0 < (sortedCol col).length := List.length_pos_iff.2 (sortedCol_ne col hne)
  have hf := floor_pos_lt hL h0 h1
  obtain ⟨p0, p1⟩ := pos_bounds hL h0 h1
  generalize sortedCol col = s at *
  set t := ((s.length : ℝ) - 1) * q with ht
  obtain ⟨a, b⟩ := interp_ge s hs t p0 hf
  rw [hx] at a b
  have hlow : ∀ i, i ≤ ⌊t⌋₊ → s.getD i 0 ≤ x := fun i hi => (sorted_getD hs hi hf).trans a
  have hc1 : ⌊t⌋₊ + 1 ≤ (s.filter (fun y => decide (y ≤ x))).length := by
    have hsub : (s.take (⌊t⌋₊ + 1)).filter (fun y => decide (y ≤ x)) = s.take (⌊t⌋₊ + 1) := by
      rw [List.filter_eq_self]
      intro y hy
      obtain ⟨i, hi, rfl⟩ := List.mem_iff_getElem.1 hy
      have hi' : i < s.length := by rw [List.length_take] at hi; omega
      have := hlow i (by rw [List.length_take] at hi; omega)
      rw [List.getD, List.getElem?_eq_getElem hi'] at this
      simpa using this
    have := (List.Sublist.filter (fun y => decide (y ≤ x)) (List.take_sublist (⌊t⌋₊ + 1) s)).length_le
    rw [hsub, List.length_take] at this
    omega
  have hhigh : ∀ i, ⌈t⌉₊ ≤ i → i < s.length → x ≤ s.getD i 0 := by
    intro i hi hi'
    by_cases hint : t = ⌊t⌋₊
    · have : x = s.getD ⌊t⌋₊ 0 := by
        rw [← hx]
        unfold interp
        rw [← hint]; simp
      rw [this]
      refine sorted_getD hs ?_ hi'
      have : ⌈t⌉₊ = ⌊t⌋₊ := by rw [hint]; simp
      omega
    · have hlt : (⌊t⌋₊ : ℝ) < t := lt_of_le_of_ne (Nat.floor_le p0) (Ne.symm hint)
      have hc : ⌊t⌋₊ + 1 ≤ i := by
        have : ⌊t⌋₊ < ⌈t⌉₊ := Nat.lt_ceil.2 hlt
        omega
      have h3 : s.getD (⌊t⌋₊ + 1) (s.getD ⌊t⌋₊ 0) = s.getD (⌊t⌋₊ + 1) 0 := getD_lt (by omega) _ _
      rw [h3] at b
      exact b.trans (sorted_getD hs hc hi')
  have hc2 : s.length - ⌈t⌉₊ ≤ (s.filter (fun y => decide (x ≤ y))).length := by
    have hsub : (s.drop ⌈t⌉₊).filter (fun y => decide (x ≤ y)) = s.drop ⌈t⌉₊ := by
      rw [List.filter_eq_self]
      intro y hy
      obtain ⟨i, hi, rfl⟩ := List.mem_iff_getElem.1 hy
      have hi' : ⌈t⌉₊ + i < s.length := by rw [List.length_drop] at hi; omega
      have := hhigh (⌈t⌉₊ + i) (by omega) hi'
      rw [List.getD, List.getElem?_eq_getElem hi'] at this
      simpa using this
    have := (List.Sublist.filter (fun y => decide (x ≤ y)) (List.drop_sublist ⌈t⌉₊ s)).length_le
    rw [hsub, List.length_drop] at this
    omega
  constructor
  · have h3 := Nat.lt_floor_add_one t
    have : ((⌊t⌋₊ + 1 : Nat) : ℝ) ≤ (s.filter (fun y => decide (y ≤ x))).length := by exact_mod_cast hc1
    push_cast at this
    linarith
  · have h3 := Nat.ceil_lt_add_one p0
    have hcl : ⌈t⌉₊ ≤ s.length := by
      rw [Nat.ceil_le]; linarith
    have : ((s.length - ⌈t⌉₊ : Nat) : ℝ) ≤ (s.filter (fun y => decide (x ≤ y))).length := by exact_mod_cast hc2
    rw [Nat.cast_sub hcl] at this
    nlinarith

end Radvel
