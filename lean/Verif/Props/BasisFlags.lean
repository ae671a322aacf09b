import Verif.Lemmas.Prior

/-!
# C84: which free-or-fixed flags a basis conversion of the vector changes
-/

namespace Radvel

/-- Row `j` of a planet's block holds a parameter of basis `b` that the synth basis does not have. -/
def Converted (b : BasisName) (j : Nat) : Prop := ∃ x ∈ b.words, x.offset = j ∧ x ∉ BasisName.words .perTpEWK

theorem flags_of (f : Block → Block) (flags : List Nat) (flag : Bool) (N : Nat) (rows rows' : List (Row ℝ)) (hl : 5 * N ≤ rows.length)
    (h : (List.range N).foldlM (fun rows i => convBlock f flags flag rows i) rows = .ok rows') :
    (∀ i j : Nat, i < N → j < 5 → ∀ r r', rows[5 * i + j]? = some r → rows'[5 * i + j]? = some r' → r'.linear = r.linear ∧ r'.vary = if j ∈ flags then flag else r.vary) ∧
    (∀ a : Nat, 5 * N ≤ a → rows'[a]? = rows[a]?) := by
  obtain ⟨q, e1, e2, e3, e4⟩ := convBlocks_spec f flags flag N rows (rowBlock rows) hl (fun i j hi hj => rowBlock_at rows i j (by omega) hj)
  rw [h] at e1
  cases e1
  refine ⟨?_, e4⟩
  intro i j hi hj r r' hr hr'
  have := e3 i j hi hj
  rw [hr, hr'] at this
  cases this
  exact ⟨rfl, rfl⟩

theorem mem_toSynthFlags (b : BasisName) (hb : b ≠ .perTcTpEWK) (j : Nat) (hj : j < 5) : j ∈ vToSynthFlags b ↔ Converted b j := by
  unfold Converted
  have : j = 0 ∨ j = 1 ∨ j = 2 ∨ j = 3 ∨ j = 4 := by omega
  rcases this with rfl | rfl | rfl | rfl | rfl <;> cases b <;> first | exact absurd rfl hb | decide

theorem mem_fromSynthFlags (b : BasisName) (hb : b ≠ .perTcTpEWK) (hb' : b ≠ .perTcEWK) (j : Nat) (hj : j < 5) : j ∈ vFromSynthFlags b ↔ Converted b j := by
  unfold Converted
  have : j = 0 ∨ j = 1 ∨ j = 2 ∨ j = 3 ∨ j = 4 := by omega
  rcases this with rfl | rfl | rfl | rfl | rfl <;> cases b <;> first | exact absurd rfl hb | exact absurd rfl hb' | decide

/-- C84 for `v_to_synth`: exactly the rows of parameters that the synth basis does not have become fixed; every other flag, and every row after the planets', stays. -/
theorem C84_to_synth (b : BasisName) (hb : b ≠ .perTcTpEWK) (N : Nat) (rows rows' : List (Row ℝ)) (hl : 5 * N ≤ rows.length) (h : vToSynth b N rows = .ok rows') :
    (∀ i j : Nat, i < N → j < 5 → ∀ r r', rows[5 * i + j]? = some r → rows'[5 * i + j]? = some r' →
      (Converted b j → r'.vary = false) ∧ (¬ Converted b j → r'.vary = r.vary)) ∧
    (∀ a : Nat, 5 * N ≤ a → rows'[a]? = rows[a]?) := by
  unfold vToSynth at h
  by_cases hs : b = .perTpEWK ∨ b = .perTcTpEWK
  · rw [if_pos hs] at h
    cases h
    refine ⟨?_, fun _ _ => rfl⟩
    intro i j hi hj r r' hr hr'
    rw [hr] at hr'
    cases hr'
    have : ¬ Converted b j := by
      rw [← mem_toSynthFlags b hb j hj]
      rcases hs with rfl | rfl <;> simp [vToSynthFlags]
    exact ⟨fun hc => absurd hc this, fun _ => rfl⟩
  · rw [if_neg hs] at h
    obtain ⟨h1, h2⟩ := flags_of _ _ _ N rows rows' hl h
    refine ⟨?_, h2⟩
    intro i j hi hj r r' hr hr'
    obtain ⟨_, h3⟩ := h1 i j hi hj r r' hr hr'
    rw [h3, ← mem_toSynthFlags b hb j hj]
    exact ⟨fun hc => if_pos hc, fun hc => if_neg hc⟩

/-- C84 for `v_from_synth` into every five-parameter basis except `per tc e w k` (where it is false, `C84_from_synth_violated`): exactly the rows of parameters that the
synth basis does not have become free; every other flag, and every row after the planets', stays. -/
theorem C84_from_synth_partial (nb : BasisName) (hb : nb ≠ .perTcTpEWK) (hb' : nb ≠ .perTcEWK) (N : Nat) (rows rows' : List (Row ℝ)) (hl : 5 * N ≤ rows.length)
    (h : vFromSynth nb N rows = .ok rows') :
    (∀ i j : Nat, i < N → j < 5 → ∀ r r', rows[5 * i + j]? = some r → rows'[5 * i + j]? = some r' →
      (Converted nb j → r'.vary = true) ∧ (¬ Converted nb j → r'.vary = r.vary)) ∧
    (∀ a : Nat, 5 * N ≤ a → rows'[a]? = rows[a]?) := by
  unfold vFromSynth at h
  by_cases hs : nb = .perTpEWK ∨ nb = .perTcTpEWK
  · rw [if_pos hs] at h
    cases h
    refine ⟨?_, fun _ _ => rfl⟩
    intro i j hi hj r r' hr hr'
    rw [hr] at hr'
    cases hr'
    have : ¬ Converted nb j := by
      rw [← mem_fromSynthFlags nb hb hb' j hj]
      rcases hs with rfl | rfl <;> simp [vFromSynthFlags]
    exact ⟨fun hc => absurd hc this, fun _ => rfl⟩
  · rw [if_neg hs] at h
    obtain ⟨h1, h2⟩ := flags_of _ _ _ N rows rows' hl h
    refine ⟨?_, h2⟩
    intro i j hi hj r r' hr hr'
    obtain ⟨_, h3⟩ := h1 i j hi hj r r' hr hr'
    rw [h3, ← mem_fromSynthFlags nb hb hb' j hj]
    exact ⟨fun hc => if_pos hc, fun hc => if_neg hc⟩

/-- Non-vacuity of both: an array of the right length is always converted. -/
example (b : BasisName) (N : Nat) (rows : List (Row ℝ)) (hl : 5 * N ≤ rows.length) : (∃ q, vToSynth b N rows = .ok q) ∧ ∃ q, vFromSynth b N rows = .ok q := by
  constructor
  · unfold vToSynth
    split
    · exact ⟨_, rfl⟩
    · obtain ⟨q, e1, _⟩ := convBlocks_spec (vToSynthBlock b) (vToSynthFlags b) false N rows (rowBlock rows) hl (fun i j hi hj => rowBlock_at rows i j (by omega) hj)
      exact ⟨q, e1⟩
  · unfold vFromSynth
    split
    · exact ⟨_, rfl⟩
    · obtain ⟨q, e1, _⟩ := convBlocks_spec (vFromSynthBlock b) (vFromSynthFlags b) true N rows (rowBlock rows) hl (fun i j hi hj => rowBlock_at rows i j (by omega) hj)
      exact ⟨q, e1⟩

/-- The converted rows of two bases. -/
example : Converted .perTcSecoswSesinwK 1 ∧ Converted .perTcSecoswSesinwK 2 ∧ ¬ Converted .perTcSecoswSesinwK 0 ∧ Converted .logperTpEWLogk 0 := by
  unfold Converted; decide

/-- C84 is false for `v_from_synth` into `per tc e w k`: for every planet the argument of periastron becomes free, although its row is not converted, and the row of the time
of conjunction, which is converted, keeps its flag. -/
theorem C84_from_synth_violated (N : Nat) (rows rows' : List (Row ℝ)) (hl : 5 * N ≤ rows.length) (h : vFromSynth .perTcEWK N rows = .ok rows') (i : Nat) (hi : i < N) :
    Converted .perTcEWK 1 ∧ ¬ Converted .perTcEWK 3 ∧
    (∀ r r', rows[5 * i + 1]? = some r → rows'[5 * i + 1]? = some r' → r'.vary = r.vary) ∧
    (∀ r', rows'[5 * i + 3]? = some r' → r'.vary = true) := by
  unfold vFromSynth at h
  rw [if_neg (by decide)] at h
  obtain ⟨h1, h2⟩ := flags_of _ _ _ N rows rows' hl h
  refine ⟨by unfold Converted; decide, by unfold Converted; decide, ?_, ?_⟩
  · intro r r' hr hr'
    exact (h1 i 1 hi (by omega) r r' hr hr').2
  · intro r' hr'
    have hlt : 5 * i + 3 < rows.length := by omega
    exact (h1 i 3 hi (by omega) _ r' (List.getElem?_eq_getElem hlt) hr').2

end Radvel
