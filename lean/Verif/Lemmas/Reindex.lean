import Verif.Lemmas.Derive
import Verif.Spec.Chains

/-! Lemmas on reordering the rows of the samples. -/

namespace Radvel
open Real

variable {n : Nat} {α : Type}

theorem get?_reorder (σ : Fin n → Fin n) (c : Dict Key (Fin n → α)) (k : Key) : (reorder σ c).get? k = (c.get? k).map (fun col j => col (σ j)) := by
  induction c with
  | nil => rfl
  | cons x t ih =>
    obtain ⟨k', v⟩ := x
    change Dict.get? ((k', fun j => v (σ j)) :: reorder σ t) k = _
    simp only [Dict.get?]
    split_ifs
    · rfl
    · exact ih

theorem reorder_set (σ : Fin n → Fin n) (c : Dict Key (Fin n → α)) (k : Key) (v : Fin n → α) : reorder σ (c.set k v) = (reorder σ c).set k (fun j => v (σ j)) := by
  induction c with
  | nil => rfl
  | cons x t ih =>
    obtain ⟨k', w⟩ := x
    change reorder σ (Dict.set ((k', w) :: t) k v) = Dict.set ((k', fun j => w (σ j)) :: reorder σ t) k _
    simp only [Dict.set]
    split_ifs
    · rfl
    · rw [← ih]; rfl

theorem has_reorder (σ : Fin n → Fin n) (c : Dict Key (Fin n → α)) (k : Key) : (reorder σ c).has k = c.has k := by
  rw [Bool.eq_iff_iff, Dict.has_iff, Dict.has_iff]
  simp [reorder, Dict.keys]

theorem addFixed_reorder (σ : Fin n → Fin n) (items : Dict Key (Parameter ℝ)) : ∀ c : Chain n, addFixed (reorder σ c) items = reorder σ (addFixed c items) := by
  induction items with
  | nil => intro c; rfl
  | cons x t ih =>
    intro c
    change addFixed (if x.2.vary = .yes then reorder σ c else (reorder σ c).set x.1 (fun _ => x.2.value)) t = reorder σ (addFixed (if x.2.vary = .yes then c else c.set x.1 (fun _ => x.2.value)) t)
    rw [← ih]
    split_ifs
    · rfl
    · rw [reorder_set]

theorem cell_reorder (σ : Fin n → Fin n) (c : Chain n) (m : Nat) (j : Fin n) : Chain.cell (reorder σ c) m j = c.cell m (σ j) := by
  funext x
  unfold Chain.cell
  rw [get?_reorder]
  cases Dict.get? c (.orb x m) <;> rfl

theorem foldlM_natural {β γ δ : Type} (F : β → γ) (f : β → δ → Except PyErr β) (g : γ → δ → Except PyErr γ) (h : ∀ b x, g (F b) x = (f b x).map F) (l : List δ) :
    ∀ b, l.foldlM g (F b) = (l.foldlM f b).map F := by
  induction l with
  | nil => intro b; rfl
  | cons x t ih =>
    intro b
    change (g (F b) x >>= _) = (f b x >>= _ : Except PyErr β).map F
    rw [h]
    rcases f b x with e | b'
    · rfl
    · exact ih b'

theorem synthPlanet_reorder (σ : Fin n → Fin n) (c : Chain n) (b : BasisName) (out : Frame n) (i : Nat) : Chain.synthPlanet (reorder σ c) b (reorder σ out) i = (c.synthPlanet b out i).map (reorder σ) := by
  unfold Chain.synthPlanet
  simp only [has_reorder, cell_reorder]
  split_ifs
  · simp only [Except.map, reorder_set]
  · rfl

theorem toSynth_reorder (σ : Fin n → Fin n) (c : Chain n) (b : BasisName) (N : Nat) : Chain.toSynth (reorder σ c) b N = (c.toSynth b N).map (reorder σ) := by
  unfold Chain.toSynth
  have : Chain.toFrame (reorder σ c) = reorder σ c.toFrame := by
    simp [Chain.toFrame, reorder, Function.comp_def]
  rw [this]
  exact foldlM_natural (reorder σ) _ _ (fun out i => synthPlanet_reorder σ c b out i) _ _

theorem getParam_reorder (σ : Fin n → Fin n) (f : Frame n) (P : DeriveFile) (i : Nat) (x : PName) : getParam (reorder σ f) P i x = (getParam f P i x).map (fun col j => col (σ j)) := by
  unfold getParam
  rw [get?_reorder]
  rcases Dict.get? f (.orb x i) with _ | col
  · simp only [Option.map_none]
    rcases P.params.items.get? (.orb x i) with _ | q <;> rfl
  · rfl

theorem msini_reorder (root : (ℝ → Option ℝ) → ℝ → ℝ) (k : Consts) (σ : Equiv.Perm (Fin n)) (st : Fin n → Star) : ∃ ms ms', msini root k (List.ofFn st) .earth = .ok ms ∧
    msini root k (List.ofFn fun j => st (σ j)) .earth = .ok ms' ∧ ∀ j : Fin n, ms'.getD j 0 = ms.getD (σ j) 0 := by
  have hany : (List.ofFn fun j => st (σ j)).any (isHeavy k) = (List.ofFn st).any (isHeavy k) := by
    rw [Bool.eq_iff_iff, List.any_eq_true, List.any_eq_true]
    constructor
    · rintro ⟨s, h1, h2⟩
      obtain ⟨j, rfl⟩ := List.mem_ofFn.1 h1
      exact ⟨_, List.mem_ofFn.2 ⟨σ j, rfl⟩, h2⟩
    · rintro ⟨s, h1, h2⟩
      obtain ⟨j, rfl⟩ := List.mem_ofFn.1 h1
      exact ⟨_, List.mem_ofFn.2 ⟨σ.symm j, by simp⟩, h2⟩
  refine ⟨_, _, rfl, rfl, ?_⟩
  intro j
  rw [hany]
  cases (List.ofFn st).any (isHeavy k) <;> simp [List.getD]

/-- The samples and the names of the saved columns, reordered. -/
def reorderOut (σ : Fin n → Fin n) (r : Chain n × List Key) : Chain n × List Key := (reorder σ r.1, r.2)

theorem addRadius_reorder (σ : Fin n → Fin n) (k : Consts) (P : DeriveFile) (z mp : Fin n → ℝ) (acc : Chain n × List Key) (i : Nat) :
    addRadius k P (fun j => z (σ j)) (fun j => mp (σ j)) (reorderOut σ acc) i = (addRadius k P z mp acc i).map (reorderOut σ) := by
  unfold addRadius
  rcases P.planet with _ | r
  · rfl
  rcases hr : r i with ⟨_ | loc, _ | scale⟩
  · simp only [hr]; rfl
  · simp only [hr]; rfl
  · simp only [hr]; rfl
  · simp only [hr, drawNormal]
    by_cases hs : scale < 0
    · rw [if_pos hs, if_pos hs]; rfl
    · rw [if_neg hs, if_neg hs]
      simp only [Except.map, reorderOut, reorder_set]

theorem derivePlanet_reorder (σ : Equiv.Perm (Fin n)) (root : (ℝ → Option ℝ) → ℝ → ℝ) (k : Consts) (P : DeriveFile) (f : Frame n) (mstar : Fin n → ℝ) (zr : Nat → Fin n → ℝ) (acc : Chain n × List Key) (i : Nat) :
    derivePlanet root k P (reorder σ f) (fun j => mstar (σ j)) (fun i j => zr i (σ j)) (reorderOut σ acc) i = (derivePlanet root k P f mstar zr acc i).map (reorderOut σ) := by
  unfold derivePlanet
  simp only [getParam_reorder]
  rcases getParam f P i .per with e | per
  · rfl
  rcases getParam f P i .k with e | amp
  · rfl
  rcases getParam f P i .e with e | ecc
  · rfl
  simp only [Except.map]
  obtain ⟨ms, ms', h1, h2, h3⟩ := msini_reorder root k σ (fun j => ⟨amp j, per j, mstar j, ecc j⟩)
  rw [h1, h2]
  simp only [h3]
  have := addRadius_reorder σ k P (zr i) (fun j : Fin n => ms.getD j 0)
    (((acc.1.set (derivedName "mpsini".toList i) (fun j : Fin n => ms.getD j 0)).set (derivedName "a".toList i) (fun j : Fin n => semiMajorAxis k (per j) (mstar j + (ms.getD j 0 * k.Mearth) / k.Msun))).set
      (derivedName "musini".toList i) (fun j : Fin n => (ms.getD j 0 * k.Mearth) / (mstar j * k.Msun)),
              acc.2 ++ [derivedName "mpsini".toList i, derivedName "a".toList i, derivedName "musini".toList i]) i
  simp only [reorderOut, reorder_set, Except.map] at this
  exact this

end Radvel
