import Verif.Model.Chains
import Verif.Lemmas.Dict
import Mathlib.Tactic.Linarith
import Mathlib.Tactic.Positivity
import Mathlib.Tactic.SplitIfs

/-! Lemmas on tables of samples. -/

namespace Radvel
open Real

theorem Chain.get?_toFrame {n : Nat} (c : Chain n) (k : Key) : c.toFrame.get? k = (c.get? k).map (fun col j => some (col j)) := by
  unfold Chain.toFrame
  induction c with
  | nil => rfl
  | cons x t ih =>
    obtain ⟨k', col⟩ := x
    simp only [List.map_cons, Dict.get?]
    by_cases h : k' = k
    · simp [h]
    · simpa [h] using ih

theorem Chain.keys_toFrame {n : Nat} (c : Chain n) : Dict.keys (c.toFrame) = c.keys := by
  simp [Chain.toFrame, Dict.keys, Function.comp_def]

/-- The five columns of one planet. -/
noncomputable def SynthCell.get (s : SynthCell) : PName → Option ℝ
  | .per => some s.per
  | .tp => s.tp
  | .e => some s.e
  | .w => some s.w
  | .k => some s.k
  | _ => none

/-- The names of the synth basis. -/
def synthNames : List PName := [.per, .tp, .e, .w, .k]

theorem Chain.synthPlanet_get {n : Nat} {c : Chain n} {b : BasisName} {out out' : Frame n} {i : Nat} (h : c.synthPlanet b out i = .ok out') (k : Key) :
    out'.get? k = if ∃ x ∈ synthNames, k = .orb x (i + 1) then
      (match k with | .orb x _ => some (fun j => (synthCell b (c.cell (i + 1) j)).get x) | _ => none) else out.get? k := by
  unfold Chain.synthPlanet at h
  split_ifs at h with hh
  simp only at h
  have h := (Except.ok.inj h).symm
  subst h
  simp only [Dict.get?_set]
  by_cases hk : ∃ x ∈ synthNames, k = .orb x (i + 1)
  · rw [if_pos hk]
    obtain ⟨x, hx, rfl⟩ := hk
    simp only [synthNames, List.mem_cons, List.not_mem_nil, or_false] at hx
    rcases hx with rfl | rfl | rfl | rfl | rfl <;> simp [SynthCell.get]
  · rw [if_neg hk]
    have : ∀ x ∈ synthNames, (Key.orb x (i + 1)) ≠ k := fun x hx he => hk ⟨x, hx, he.symm⟩
    simp only [synthNames, List.mem_cons, List.not_mem_nil, or_false, forall_eq_or_imp, forall_eq] at this
    obtain ⟨h1, h2, h3, h4, h5⟩ := this
    simp [h1, h2, h3, h4, h5]

theorem Chain.synthPlanet_ok {n : Nat} (c : Chain n) (b : BasisName) (out : Frame n) (i : Nat) :
    (∃ out', c.synthPlanet b out i = .ok out') ↔ ∀ x ∈ synthReads b, Key.orb x (i + 1) ∈ c.keys := by
  unfold Chain.synthPlanet
  constructor
  · rintro ⟨o, h⟩ x hx
    split_ifs at h with hh
    have := List.all_eq_true.1 hh x hx
    exact (Dict.has_iff _ _).1 this
  · intro h
    rw [if_pos (List.all_eq_true.2 (fun x hx => (Dict.has_iff _ _).2 (h x hx)))]
    exact ⟨_, rfl⟩

theorem Chain.toSynth_spec {n : Nat} (c : Chain n) (b : BasisName) : ∀ (N : Nat) (out : Frame n), c.toSynth b N = .ok out →
    (∀ i < N, ∀ x ∈ synthReads b, Key.orb x (i + 1) ∈ c.keys) ∧
    (∀ i < N, ∀ x ∈ synthNames, out.get? (.orb x (i + 1)) = some (fun j => (synthCell b (c.cell (i + 1) j)).get x)) ∧
    ∀ k, (∀ i < N, ∀ x ∈ synthNames, k ≠ .orb x (i + 1)) → out.get? k = (c.get? k).map (fun col j => some (col j)) := by
  intro N
  induction N with
  | zero =>
    intro out h
    cases Except.ok.inj h
    exact ⟨by simp, by simp, fun k _ => c.get?_toFrame k⟩
  | succ N ih =>
    intro out h
    unfold Chain.toSynth at h ih
    rw [List.range_succ, List.foldlM_append] at h
    rcases h1 : (List.range N).foldlM (c.synthPlanet b) c.toFrame with e | o
    · rw [h1] at h; cases h
    · rw [h1] at h
      have h2 : c.synthPlanet b o N = .ok out := by
        change (c.synthPlanet b o N >>= pure) = _ at h
        rcases h3 : c.synthPlanet b o N with e | o'
        · rw [h3] at h; cases h
        · rw [h3] at h; exact h
      obtain ⟨a1, a2, a3⟩ := ih o h1
      have a4 := (c.synthPlanet_ok b o N).1 ⟨_, h2⟩
      have a5 := Chain.synthPlanet_get h2
      refine ⟨?_, ?_, ?_⟩
      · intro i hi x hx
        rcases Nat.lt_succ_iff_lt_or_eq.1 hi with hi | rfl
        · exact a1 i hi x hx
        · exact a4 x hx
      · intro i hi x hx
        rcases Nat.lt_succ_iff_lt_or_eq.1 hi with hi | rfl
        · rw [a5, if_neg (by rintro ⟨y, _, he⟩; injection he; omega), a2 i hi x hx]
        · rw [a5, if_pos ⟨x, hx, rfl⟩]
      · intro k hk
        rw [a5, if_neg (by rintro ⟨y, hy, he⟩; exact hk N (Nat.lt_succ_self _) y hy he)]
        exact a3 k (fun i hi x hx => hk i (by omega) x hx)

theorem Chain.toSynth_ok {n : Nat} (c : Chain n) (b : BasisName) : ∀ (N : Nat), (∀ i < N, ∀ x ∈ synthReads b, Key.orb x (i + 1) ∈ c.keys) → ∃ out, c.toSynth b N = .ok out := by
  intro N
  induction N with
  | zero => intro _; exact ⟨_, rfl⟩
  | succ N ih =>
    intro h
    obtain ⟨o, ho⟩ := ih (fun i hi => h i (by omega))
    obtain ⟨o', ho'⟩ := (c.synthPlanet_ok b o N).2 (h N (Nat.lt_succ_self _))
    refine ⟨o', ?_⟩
    unfold Chain.toSynth at ho ⊢
    rw [List.range_succ, List.foldlM_append, ho]
    change (c.synthPlanet b o N >>= pure) = _
    rw [ho']
    rfl

/-- Up to eccentricity 1 a cell is converted like a scalar. -/
theorem timetransCell_eq (tc per e om : ℝ) (h0 : -1 < e) (h1 : e ≤ 1) : timetransCell tc per e om = some (timetransToTimeperi tc per e om) := by
  unfold timetransCell timetransToTimeperi
  rw [if_neg (by have : 0 ≤ (1 - e) / (1 + e) := div_nonneg (by linarith) (by linarith)
                 linarith)]
  rcases lt_or_eq_of_le h1 with h | rfl
  · rw [if_neg (by linarith)]
    rfl
  · simp

theorem timetransCell_nan (tc per e om : ℝ) (h1 : 1 < e) : timetransCell tc per e om = none := by
  unfold timetransCell
  rw [if_pos]
  exact div_neg_of_neg_of_pos (by linarith) (by linarith)

/-- The cells agree with the scalar formulas. -/
theorem synthCell_eq (b : BasisName) (v : PName → ℝ) : ∃ s, synthOf b (fun x => .ok (v x)) = .ok s ∧ (synthCell b v).per = s.per ∧ (synthCell b v).e = s.e ∧
    (synthCell b v).w = s.w ∧ (synthCell b v).k = s.k ∧ (-1 < s.e → s.e ≤ 1 → (synthCell b v).tp = some s.tp) ∧
    (1 < s.e → (PName.tc ∈ synthReads b → (synthCell b v).tp = none ∧ s.tp = v .tc)) := by
  cases b
  all_goals refine ⟨_, rfl, rfl, rfl, rfl, rfl, ?_, ?_⟩
  all_goals first
    | exact fun _ _ => rfl
    | exact fun h0 h1 => timetransCell_eq _ _ _ _ h0 h1
    | (intro h1 _; refine ⟨timetransCell_nan _ _ _ _ h1, ?_⟩; exact if_pos (le_of_lt h1))
    | (intro _ h; simp [synthReads] at h)

end Radvel
