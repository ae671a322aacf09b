import Verif.Model.Panels
import Verif.Lemmas.Markers
import Mathlib.Algebra.Group.Basic

/-!
# The arrays of the GP figure
-/

namespace Radvel

variable {α : Type} [AddCommGroup α]

open Classical in
/-- `x` plus the mean, for the telescopes in `S`. -/
noncomputable def addFor (S : String → Prop) (xs : List α) (tg : List (String × α)) : List α :=
  List.zipWith (fun x p => if S p.1 then x + p.2 else x) xs tg

theorem addAt_eq (s : String) (tv : List String) (xs g : List α) (h1 : xs.length = tv.length) (h2 : g.length = tv.length) :
    addAt s tv xs (ptsOf (tv.zip g) s) = addFor (· = s) xs (tv.zip g) := by
  induction tv generalizing xs g with
  | nil =>
    cases xs with
    | nil => simp [addAt, addFor]
    | cons => simp at h1
  | cons t tv ih =>
    cases xs with
    | nil => simp at h1
    | cons x xs =>
      cases g with
      | nil => simp at h2
      | cons m g =>
        simp only [List.length_cons, Nat.add_right_cancel_iff] at h1 h2
        have e := ih xs g h1 h2
        unfold addFor at e ⊢
        by_cases ht : t = s
        · subst ht
          have hp : ptsOf ((t :: tv).zip (m :: g)) t = m :: ptsOf (tv.zip g) t := by simp [ptsOf]
          rw [hp]
          simp only [addAt, if_true, List.zip_cons_cons, List.zipWith_cons_cons]
          rw [e]
        · have hp : ptsOf ((t :: tv).zip (m :: g)) s = ptsOf (tv.zip g) s := by simp [ptsOf, ht]
          rw [hp]
          simp only [addAt, if_neg ht, List.zip_cons_cons, List.zipWith_cons_cons]
          rw [e]

theorem addFor_none (xs : List α) (tg : List (String × α)) (h : xs.length = tg.length) : addFor (fun _ => False) xs tg = xs := by
  induction xs generalizing tg with
  | nil => simp [addFor]
  | cons x xs ih =>
    cases tg with
    | nil => simp at h
    | cons p tg =>
      have := ih tg (by simpa using h)
      unfold addFor at this ⊢
      simp only [if_false, List.zipWith_cons_cons] at this ⊢
      rw [this]

theorem addFor_add (S : String → Prop) (s : String) (hs : ¬ S s) (xs : List α) (tg : List (String × α)) (h : xs.length = tg.length) :
    addFor (· = s) (addFor S xs tg) tg = addFor (fun t => S t ∨ t = s) xs tg := by
  induction xs generalizing tg with
  | nil => simp [addFor]
  | cons x xs ih =>
    cases tg with
    | nil => simp at h
    | cons p tg =>
      have := ih tg (by simpa using h)
      unfold addFor at this ⊢
      simp only [List.zipWith_cons_cons]
      rw [this]
      congr 1
      by_cases h1 : p.1 = s
      · rw [if_pos h1, if_neg (by rw [h1]; exact hs), if_pos (Or.inr h1)]
      · rw [if_neg h1]
        by_cases h2 : S p.1
        · rw [if_pos h2, if_pos (.inl h2)]
        · rw [if_neg h2, if_neg (fun h => h.elim h2 h1)]

theorem addFor_congr (S S' : String → Prop) (xs : List α) (tg : List (String × α)) (h : ∀ p ∈ tg, (S p.1 ↔ S' p.1) ∨ p.2 = 0) : addFor S xs tg = addFor S' xs tg := by
  induction xs generalizing tg with
  | nil => simp [addFor]
  | cons x xs ih =>
    cases tg with
    | nil => simp [addFor]
    | cons p tg =>
      have e := ih tg (fun q hq => h q (by simp [hq]))
      unfold addFor at e ⊢
      simp only [List.zipWith_cons_cons]
      rw [e]
      congr 1
      rcases h p (by simp) with h | h
      · by_cases h1 : S p.1
        · rw [if_pos h1, if_pos (h.1 h1)]
        · rw [if_neg h1, if_neg (fun h' => h1 (h.2 h'))]
      · rw [h]; simp

theorem addFor_length (S : String → Prop) (xs : List α) (tg : List (String × α)) (h : xs.length = tg.length) : (addFor S xs tg).length = xs.length := by
  unfold addFor; rw [List.length_zipWith, h, Nat.min_self]

theorem addFor_all (xs : List α) (tv : List String) (g : List α) (h2 : g.length = tv.length) : addFor (fun _ => True) xs (tv.zip g) = List.zipWith (· + ·) xs g := by
  induction xs generalizing tv g with
  | nil => simp [addFor]
  | cons x xs ih =>
    cases tv with
    | nil => cases g with
      | nil => simp [addFor]
      | cons => simp at h2
    | cons t tv => cases g with
      | nil => simp at h2
      | cons m g =>
        have := ih tv g (by simpa using h2)
        unfold addFor at this ⊢
        simp only [List.zip_cons_cons, List.zipWith_cons_cons, if_true] at this ⊢
        rw [this]

end Radvel
