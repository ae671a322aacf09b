import Verif.Model.Prior
import Verif.Lemmas.RVModel

namespace Radvel
open Real

/-- The five values of planet `i + 1` in the array. -/
noncomputable def rowBlock (rows : List (Row ℝ)) (i : Nat) : Block :=
  ⟨(rows[5 * i]?.map Row.value).getD 0, (rows[5 * i + 1]?.map Row.value).getD 0, (rows[5 * i + 2]?.map Row.value).getD 0,
    (rows[5 * i + 3]?.map Row.value).getD 0, (rows[5 * i + 4]?.map Row.value).getD 0⟩

theorem rowBlock_at (rows : List (Row ℝ)) (i j : Nat) (hl : 5 * i + 5 ≤ rows.length) (hj : j < 5) :
    (rows[5 * i + j]?).map Row.value = some ((rowBlock rows i).at j) := by
  have : j = 0 ∨ j = 1 ∨ j = 2 ∨ j = 3 ∨ j = 4 := by omega
  have h0 : 5 * i < rows.length := by omega
  rcases this with rfl | rfl | rfl | rfl | rfl <;>
    (rw [List.getElem?_eq_getElem (by omega)]; simp [rowBlock, Block.at]; rw [List.getElem?_eq_getElem (by omega)]; rfl)

theorem vToSynth_block (b : BasisName) (N : Nat) (rows : List (Row ℝ)) (hl : 5 * N ≤ rows.length) :
    ∃ rows', vToSynth b N rows = .ok rows' ∧ rows'.length = rows.length ∧
      ∀ i j : Nat, i < N → j < 5 → (rows'[5 * i + j]?).map Row.value = some ((vToSynthBlock b (rowBlock rows i)).at j) := by
  have hv : ∀ i j : Nat, i < N → j < 5 → (rows[5 * i + j]?).map Row.value = some ((rowBlock rows i).at j) :=
    fun i j hi hj => rowBlock_at rows i j (by omega) hj
  unfold vToSynth
  split
  · rename_i hb
    refine ⟨rows, rfl, rfl, ?_⟩
    intro i j hi hj
    rw [hv i j hi hj]
    rcases hb with rfl | rfl <;> rfl
  · obtain ⟨rows', e1, e2, e3, _⟩ := convBlocks_spec (vToSynthBlock b) (vToSynthFlags b) false N rows (rowBlock rows) hl hv
    refine ⟨rows', e1, e2, ?_⟩
    intro i j hi hj
    rw [e3 i j hi hj]
    exact conv_value _ _ _ _ _ _ (hv i j hi hj)

theorem readPar_orb {s : VState ℝ} (h : IdxInv s s.rows.length) (x : PName) (n : Nat) (h1 : 1 ≤ n) (h2 : n ≤ s.params.numPlanets) :
    readPar s (.orb x n) = .ok ((rowBlock s.rows (n - 1)).at x.offset) := by
  have hsz := h.size
  have hoff : x.offset < 5 := by cases x <;> decide
  have := rowBlock_at s.rows (n - 1) x.offset (by omega) hoff
  rw [Option.map_eq_some_iff] at this
  obtain ⟨r, hr, hv⟩ := this
  simp [readPar, h.orbIdx x n h1 h2, hr, hv]

theorem synthRow_eq {rows : List (Row ℝ)} {n j : Nat} {x : ℝ} (h : (rows[5 * (n - 1) + j]?).map Row.value = some x) :
    synthRow rows n j = .ok x := by
  rw [Option.map_eq_some_iff] at h
  obtain ⟨r, hr, hv⟩ := h
  simp [synthRow, hr, hv]

theorem eccOf_block {s : VState ℝ} (h : IdxInv s s.rows.length) (n : Nat) (h1 : 1 ≤ n) (h2 : n ≤ s.params.numPlanets) :
    eccOf s n = .ok ((vToSynthBlock s.params.basis (rowBlock s.rows (n - 1))).at 2) := by
  have hr := fun x => readPar_orb h x n h1 h2
  unfold eccOf
  cases hb : s.params.basis <;>
    simp [BasisName.words, hr, vToSynthBlock, Block.at, PName.offset, bind, Except.bind, pure, Except.pure]

theorem ampOf_block {s : VState ℝ} (h : IdxInv s s.rows.length) (n : Nat) (h1 : 1 ≤ n) (h2 : n ≤ s.params.numPlanets) :
    ampOf s n = .ok ((rowBlock s.rows (n - 1)).at 4) := by
  unfold ampOf
  rw [readPar_orb h .k n h1 h2]
  rfl

theorem phaseOf_add_int (x P : ℝ) (hP : P ≠ 0) (m : ℤ) : phaseOf (x + m * P) P = phaseOf x P := by
  unfold phaseOf
  rw [add_div, mul_div_assoc, div_self hP, mul_one, Int.floor_add_intCast]
  push_cast
  ring

end Radvel
