import Verif.Model.ModelComp
import Mathlib.Data.List.Perm.Basic
import Mathlib.Data.List.Sublists
import Mathlib.Data.Finset.Dedup
import Mathlib.Order.Basic

/-! `itertools.combinations` and the groups of planets. -/

namespace Radvel

theorem mem_combinations {β : Type} : ∀ (n : Nat) (l g : List β), g ∈ combinations n l ↔ g.Sublist l ∧ g.length = n := by
  intro n l
  induction l generalizing n with
  | nil =>
    intro g
    cases n with
    | zero => simp [combinations]
    | succ n => simp only [combinations, List.not_mem_nil, List.sublist_nil, false_iff]; rintro ⟨rfl, h⟩; cases h
  | cons a l ih =>
    intro g
    cases n with
    | zero =>
      simp only [combinations, List.mem_singleton]
      constructor
      · rintro rfl; simp
      · rintro ⟨_, h⟩; exact List.length_eq_zero_iff.1 h
    | succ n =>
      simp only [combinations, List.mem_append, List.mem_map, ih]
      constructor
      · rintro (⟨g', ⟨h1, h2⟩, rfl⟩ | ⟨h1, h2⟩)
        · exact ⟨h1.cons_cons a, by simp [h2]⟩
        · exact ⟨h1.cons a, h2⟩
      · rintro ⟨h1, h2⟩
        cases h1 with
        | cons _ h => exact .inr ⟨h, h2⟩
        | cons_cons _ h => exact .inl ⟨_, ⟨h, by simpa using h2⟩, rfl⟩

theorem nodup_combinations {β : Type} : ∀ (n : Nat) (l : List β), l.Nodup → (combinations n l).Nodup := by
  intro n l
  induction l generalizing n with
  | nil => intro _; cases n <;> simp [combinations]
  | cons a l ih =>
    intro h
    cases n with
    | zero => simp [combinations]
    | succ n =>
      rw [List.nodup_cons] at h
      simp only [combinations]
      rw [List.nodup_append]
      refine ⟨(ih n h.2).map (fun _ _ h => by simpa using h), ih _ h.2, ?_⟩
      rintro g hg g' hg' rfl
      obtain ⟨g0, _, rfl⟩ := List.mem_map.1 hg
      exact h.1 (((mem_combinations _ _ _).1 hg').1.subset (by simp))

/-- The planet numbers. -/
def planetNums (N : Nat) : List Nat := (List.range N).map (· + 1)

theorem planetNums_lt (N : Nat) : (planetNums N).Pairwise (· < ·) := by
  unfold planetNums
  rw [List.pairwise_map]
  exact List.pairwise_lt_range.imp (by intro a b h; omega)

theorem mem_planetNums (N n : Nat) : n ∈ planetNums N ↔ 1 ≤ n ∧ n ≤ N := by
  simp only [planetNums, List.mem_map, List.mem_range]
  constructor
  · rintro ⟨a, h, rfl⟩; omega
  · rintro ⟨h1, h2⟩; exact ⟨n - 1, by omega, by omega⟩

theorem planetNums_length (N : Nat) : (planetNums N).length = N := by simp [planetNums]

theorem mem_planetGroups (N : Nat) (g : List Nat) : g ∈ planetGroups N ↔ g.Sublist (planetNums N) ∧ g ≠ [] := by
  simp only [planetGroups, List.mem_flatMap, List.mem_range]
  constructor
  · rintro ⟨i, _, h⟩
    obtain ⟨h1, h2⟩ := (mem_combinations _ _ _).1 h
    exact ⟨h1, by intro h0; rw [h0] at h2; cases h2⟩
  · rintro ⟨h1, h2⟩
    have hl := h1.length_le
    rw [planetNums_length] at hl
    have hp : 0 < g.length := List.length_pos_iff.2 h2
    exact ⟨g.length - 1, by omega, (mem_combinations _ _ _).2 ⟨h1, by omega⟩⟩

theorem nodup_planetGroups (N : Nat) : (planetGroups N).Nodup := by
  unfold planetGroups
  rw [List.nodup_flatMap]
  refine ⟨fun i _ => nodup_combinations _ _ ((planetNums_lt N).imp (fun h => h.ne)), ?_⟩
  refine (List.nodup_range (n := N)).imp ?_
  intro i j hij g h1 h2
  have a := ((mem_combinations _ _ _).1 h1).2
  have b := ((mem_combinations _ _ _).1 h2).2
  omega

/-- Increasing lists with the same members are equal. -/
theorem eq_of_toFinset {g g' : List Nat} (h1 : g.Pairwise (· < ·)) (h2 : g'.Pairwise (· < ·)) (h : g.toFinset = g'.toFinset) : g = g' := by
  have hp : g.Perm g' := List.perm_of_nodup_nodup_toFinset_eq (h1.imp fun h => h.ne) (h2.imp fun h => h.ne) h
  exact hp.eq_of_pairwise (le := (· < ·)) (fun a b _ _ h h' => by omega) h1 h2

end Radvel
