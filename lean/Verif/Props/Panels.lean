import Verif.Model.Panels
import Mathlib.Data.List.Nodup
import Mathlib.Data.Nat.Init
import Mathlib.Tactic.Linarith

/-!
# C137: the panels of a figure
-/

namespace Radvel

/-- The planet of a phase panel. -/
def Panel.planet? : Panel → Option Nat
  | .phase k _ _ _ => some k
  | _ => none

/-- The letter of a panel. -/
def Panel.letter? : Panel → Option Nat
  | .rv l => l
  | .like _ l => some l
  | .resid l => l
  | .phase _ l _ _ => some l

/-- The cell of a phase panel. -/
def Panel.cell? : Panel → Option (Nat × Nat)
  | .phase _ _ r c => some (r, c)
  | _ => none

/-- The phase panels of `n` planets in a grid of `c` columns, lettered from `l`. -/
def phasePanels (n c l : Nat) : List Panel := (List.range n).map (fun i => .phase (i + 1) (l + i) (i / c) (i % c))

theorem col_eq (i c : Nat) : i - i / c * c = i % c := by
  have := Nat.div_add_mod i c
  rw [Nat.mul_comm] at this
  omega

theorem phaseStep_some {rows cols c i : Nat} (base : List Panel) (l : Nat) (hr : i / c < rows) (hc : i % c < cols) :
    phaseStep rows cols c (base, some l) i = .ok (base ++ [.phase (i + 1) l (i / c) (i % c)], some (l + 1)) := by
  unfold phaseStep
  simp only [col_eq]
  rw [if_pos ⟨hr, hc⟩]

theorem phase_loop {rows cols c : Nat} (n : Nat) (base : List Panel) (l : Nat) (h : ∀ i < n, i / c < rows ∧ i % c < cols) :
    (List.range n).foldlM (phaseStep rows cols c) (base, some l) = .ok (base ++ phasePanels n c l, some (l + n)) := by
  induction n with
  | zero => simp [phasePanels, pure, Except.pure]
  | succ n ih =>
    rw [List.range_succ, List.foldlM_append, ih (fun i hi => h i (by omega))]
    change (List.foldlM (phaseStep rows cols c) (base ++ phasePanels n c l, some (l + n)) [n]) = _
    rw [List.foldlM_cons, phaseStep_some _ _ (h n (by omega)).1 (h n (by omega)).2]
    simp [phasePanels, List.range_succ, pure, Except.pure, bind, Except.bind, Nat.add_assoc]

theorem phase_loop_bad {rows cols c : Nat} (n : Nat) (base : List Panel) (l : Nat) (hcol : ∀ i, i % c < cols) (hbad : ∃ j < n, ¬ j / c < rows) :
    (List.range n).foldlM (phaseStep rows cols c) (base, some l) = .error .indexError := by
  induction n with
  | zero => obtain ⟨j, hj, _⟩ := hbad; omega
  | succ n ih =>
    rw [List.range_succ, List.foldlM_append]
    by_cases hprev : ∃ j < n, ¬ j / c < rows
    · rw [ih hprev]
      rfl
    · push Not at hprev
      rw [phase_loop n base l (fun i hi => ⟨hprev i hi, hcol i⟩)]
      obtain ⟨j, hj, hb⟩ := hbad
      have : j = n := by
        by_contra hne
        exact hb (hprev j (by omega))
      subst this
      change (List.foldlM (phaseStep rows cols c) (base ++ phasePanels j c l, some (l + j)) [j]) = _
      have : phaseStep rows cols c (base ++ phasePanels j c l, some (l + j)) j = .error .indexError := by
        unfold phaseStep
        rw [if_neg (fun h => hb h.1)]
      rw [List.foldlM_cons, this]
      rfl

theorem fits_iff (n R c : Nat) (hc : 0 < c) : (∀ i < n, i / c < R) ↔ n ≤ R * c := by
  constructor
  · intro h
    cases n with
    | zero => omega
    | succ n => exact (Nat.div_lt_iff_lt_mul hc).1 (h n (by omega))
  · intro h i hi
    exact (Nat.div_lt_iff_lt_mul hc).2 (by omega)

theorem rows_enough (n c : Nat) (hc : 0 < c) : n ≤ (n + c - 1) / c * c := by
  have h1 := Nat.div_add_mod (n + c - 1) c
  have h2 := Nat.mod_lt (n + c - 1) hc
  rw [Nat.mul_comm] at h1
  omega

/-- Every planet has one phase panel, in a cell of its own. -/
theorem phasePanels_spec (n c l : Nat) :
    (phasePanels n c l).map Panel.planet? = (List.range n).map (fun i => some (i + 1)) ∧ ((phasePanels n c l).map Panel.cell?).Nodup := by
  unfold phasePanels
  refine ⟨by rw [List.map_map]; rfl, ?_⟩
  rw [List.map_map]
  refine List.Nodup.map_on ?_ List.nodup_range
  intro i _ j _ h
  simp only [Function.comp, Panel.cell?, Option.some.injEq, Prod.mk.injEq] at h
  rw [← Nat.div_add_mod i c, ← Nat.div_add_mod j c, h.1, h.2]

/-- C137: with letters, in `c` columns and as many rows as the object computes, the figure has the two panels of the time series and then, for the planets in order, one phase panel each; their cells are
different and inside the grid, and the letters are `a`, `b`, `c`, … -/
theorem C137_grid (n c : Nat) (hc : 0 < c) : ∃ ps, multipanel none (some c) n false true = .ok ([.rv (some 97), .resid (some 98)] ++ ps) ∧
    ps.map Panel.planet? = (List.range n).map (fun i => some (i + 1)) ∧ (ps.map Panel.cell?).Nodup ∧
    (∀ p ∈ ps, ∃ r k, p.cell? = some (r, k) ∧ r < (n + c - 1) / c ∧ k < c) ∧
    ([.rv (some 97), .resid (some 98)] ++ ps : List Panel).map Panel.letter? = (List.range (n + 2)).map (fun i => some (97 + i)) := by
  have hfit := (fits_iff n ((n + c - 1) / c) c hc).2 (rows_enough n c hc)
  refine ⟨phasePanels n c 99, ?_, (phasePanels_spec n c 99).1, (phasePanels_spec n c 99).2, ?_, ?_⟩
  · unfold multipanel phaseGrid
    simp only [Option.getD_none, Option.getD_some, if_true, Bool.false_eq_true, if_false, Option.map_some]
    rw [phase_loop n _ 99 (fun i hi => ⟨lt_of_lt_of_le (hfit i hi) (le_max_right _ _), lt_of_lt_of_le (Nat.mod_lt i hc) (le_max_right _ _)⟩)]
  · intro p hp
    obtain ⟨i, hi, rfl⟩ := List.mem_map.1 hp
    exact ⟨i / c, i % c, rfl, hfit i (List.mem_range.1 hi), Nat.mod_lt i hc⟩
  · rw [Nat.add_comm n 2, List.range_add]
    simp only [phasePanels, List.map_append, List.map_map]
    rw [show (List.range 2) = [0, 1] from rfl]
    simp only [List.map_cons, List.map_nil, Panel.letter?]
    congr 1
    apply List.map_congr_left
    intro i _
    simp [Panel.letter?]
    omega

/-- C137: with a number of rows given, the figure is drawn exactly when the planets fit in the grid; otherwise `IndexError`. -/
theorem C137_rows (n r c : Nat) (hc : 0 < c) : ((∃ l, multipanel (some r) (some c) n false true = .ok l) ↔ n ≤ max 1 r * c) ∧
    (max 1 r * c < n → multipanel (some r) (some c) n false true = .error .indexError) := by
  have hcol : ∀ i, i % c < max 1 c := fun i => lt_of_lt_of_le (Nat.mod_lt i hc) (le_max_right _ _)
  have hbad : max 1 r * c < n → multipanel (some r) (some c) n false true = .error .indexError := by
    intro h
    have : ¬ ∀ i < n, i / c < max 1 r := fun h' => absurd ((fits_iff n _ c hc).1 h') (by omega)
    push Not at this
    unfold multipanel phaseGrid
    simp only [Option.getD_some, if_true, Bool.false_eq_true, if_false, Option.map_some]
    rw [phase_loop_bad n _ 99 hcol (by obtain ⟨j, h1, h2⟩ := this; exact ⟨j, h1, by omega⟩)]
  refine ⟨⟨?_, ?_⟩, hbad⟩
  · rintro ⟨l, hl⟩
    by_contra h
    rw [hbad (by omega)] at hl
    cases hl
  · intro h
    have hfit := (fits_iff n (max 1 r) c hc).2 h
    unfold multipanel phaseGrid
    simp only [Option.getD_some, if_true, Bool.false_eq_true, if_false, Option.map_some]
    rw [phase_loop n _ 99 (fun i hi => ⟨hfit i hi, hcol i⟩)]
    exact ⟨_, rfl⟩

/-- C137: without phase panels a `MultipanelPlot` has the two panels of the time series, with or without letters. -/
theorem C137_nophase (nrows ncols : Option Nat) (n : Nat) (letters : Bool) : ∃ a b, multipanel nrows ncols n true letters = .ok [a, b] ∧ a.planet? = none ∧ b.planet? = none ∧ (a.letter?.isSome ↔ letters = true) := by
  cases letters <;> exact ⟨_, _, rfl, rfl, rfl, by simp [Panel.letter?]⟩

/-- C137 fails without letters: with at least one planet, `plot_multipanel(letter_labels=False)` raises `UnboundLocalError` at the first phase panel, because `pltletter` is only assigned when there are letters. -/
theorem C137_labels_violated (n c : Nat) (hn : 0 < n) (hc : 0 < c) : multipanel none (some c) n false false = .error .unboundLocalError := by
  unfold multipanel phaseGrid
  simp only [Option.getD_none, Option.getD_some, Bool.false_eq_true, if_false, Option.map_none]
  obtain ⟨k, rfl⟩ : ∃ k, n = k + 1 := ⟨n - 1, by omega⟩
  rw [List.range_succ_eq_map, List.foldlM_cons]
  have : phaseStep (max 1 ((k + 1 + c - 1) / c)) (max 1 c) c ([Panel.rv none, Panel.resid none], none) 0 = .error .unboundLocalError := by
    unfold phaseStep
    simp only [Nat.zero_div, Nat.zero_mul, Nat.sub_zero]
    rw [if_pos ⟨by omega, by omega⟩]
  rw [this]
  rfl

/-- C137 for the GP figure with one panel per likelihood: these, the residuals, and the planets; the figure is returned. -/
theorem C137_gp_separate_partial (n c k : Nat) (hc : 0 < c) (hn : 0 < n) : ∃ ps, gpMultipanel none (some c) n k true false = .ok ((List.range k).map (fun i => .like i (97 + i)) ++ [.resid (some (97 + k))] ++ ps, true) ∧
    ps.map Panel.planet? = (List.range n).map (fun i => some (i + 1)) ∧ (ps.map Panel.cell?).Nodup ∧ ps.map Panel.letter? = (List.range n).map (fun i => some (97 + k + 1 + i)) := by
  have hfit := (fits_iff n ((n + c - 1) / c) c hc).2 (rows_enough n c hc)
  have hpos : 0 < (n + c - 1) / c := lt_of_le_of_lt (Nat.zero_le _) (hfit 0 hn)
  refine ⟨phasePanels n c (97 + k + 1), ?_, (phasePanels_spec n c _).1, (phasePanels_spec n c _).2, by simp [phasePanels, Panel.letter?]⟩
  unfold gpMultipanel phaseGrid
  simp only [Option.getD_none, Option.getD_some, Bool.not_true, Bool.false_eq_true, if_false]
  rw [if_neg (by omega), phase_loop n _ _ (fun i hi => ⟨hfit i hi, Nat.mod_lt i hc⟩)]

/-- C137 fails for the GP figure with all likelihoods in one panel: `nophase=True` changes nothing, the phase panels are drawn; and no figure is returned. -/
theorem C137_gp_nophase_violated (n c k : Nat) (hc : 0 < c) : ∃ l, gpMultipanel none (some c) n k false true = .ok (l, false) ∧ ∀ i < n, ∃ p ∈ l, p.planet? = some (i + 1) := by
  obtain ⟨ps, h1, h2, _⟩ := C137_grid n c hc
  refine ⟨_, by unfold gpMultipanel; simp only [Bool.not_false, if_true]; rw [h1], ?_⟩
  intro i hi
  have : some (i + 1) ∈ ps.map Panel.planet? := by rw [h2]; exact List.mem_map.2 ⟨i, List.mem_range.2 hi, rfl⟩
  obtain ⟨p, hp, e⟩ := List.mem_map.1 this
  exact ⟨p, List.mem_append_right _ hp, e⟩

/-- C137 fails for the GP figure without planets and with one panel per likelihood: the grid of phase panels has no rows, and `GridSpec` raises `ValueError`. -/
theorem C137_gp_empty_violated (c k : Nat) (hc : 0 < c) : gpMultipanel none (some c) 0 k true false = .error .valueError := by
  unfold gpMultipanel phaseGrid
  simp [hc]

/-- C137 fails for a second figure of the same object: the list of axes that is returned has those of the first figure in front. -/
theorem C137_again_violated (n c : Nat) (hc : 0 < c) : ∃ l, multipanelCall [] none (some c) n false true = .ok l ∧ multipanelCall l none (some c) n false true = .ok (l ++ l) ∧ l ≠ [] := by
  obtain ⟨ps, h1, _⟩ := C137_grid n c hc
  refine ⟨[Panel.rv (some 97), Panel.resid (some 98)] ++ ps, ?_, ?_, by simp⟩ <;> unfold multipanelCall <;> rw [h1] <;> rfl

/-- Non-vacuity: three planets in two columns. -/
example : multipanel none (some 2) 3 false true = .ok [.rv (some 97), .resid (some 98), .phase 1 99 0 0, .phase 2 100 0 1, .phase 3 101 1 0] ∧
    multipanel (some 1) (some 2) 3 false true = .error .indexError ∧ multipanel (some 1) (some 2) 2 false true ≠ .error .indexError := by decide

end Radvel
