import Verif.Lemmas.KeplerStartSound
import Verif.Props.Orbit

/-!
# C167: the Kepler solvers finish with a number

The NumPy solver: for every eccentricity from 0 to 1, 1 excluded. The C solver, which starts elsewhere: for eccentricities up to 0.99, the largest one that `rv_drive` passes on. Up to 3/5 three corrections are enough.
-/

namespace Radvel
open Real

/-! ## Passes of the loops -/

theorem unconverged_some (M e E : ℝ) : unconverged M e (some E) = true ↔ 1e-12 < |keplerFi M e E| := by
  simp [unconverged, conv]

/-- An element whose residual is at most `B` (and which is a number). -/
def KElem.Within (B : ℝ) (x : KElem) : Prop := 0 ≤ x.e ∧ x.e ≤ 3 / 5 ∧ ∃ E, x.E = some E ∧ |keplerFi x.M x.e E| ≤ B

theorem within_step {B B' : ℝ} (x : KElem) (h : x.Within B) (hB : B ≤ 1 / 10) (hB' : 21 * B ^ 4 ≤ B') (h0 : 1e-12 ≤ B') : x.step.Within B' := by
  obtain ⟨he, he1, E, hE, hf⟩ := h
  unfold KElem.step
  by_cases ha : x.active = true
  · rw [if_pos ha]
    obtain ⟨E', k1, k2⟩ := danby_close x.M x.e E he he1 (hf.trans hB)
    refine ⟨he, he1, E', by rw [hE]; exact k1, k2.trans (le_trans ?_ hB')⟩
    gcongr
  · rw [if_neg ha]
    refine ⟨he, he1, E, hE, ?_⟩
    have : ¬ unconverged x.M x.e (some E) = true := by rw [← hE]; exact ha
    rw [unconverged_some] at this
    push Not at this
    exact this.trans h0

theorem np_first (M e : ℝ) (he : 0 ≤ e) (he1 : e ≤ 3 / 5) : KElem.Within (9 / 100) ⟨M, e, some (npGuess M e)⟩ ∨ KElem.Within (3 / 50) (KElem.step ⟨M, e, some (npGuess M e)⟩) := by
  have go : ∀ σ : ℝ, (σ = 1 ∨ σ = -1) → 0 < σ * sin M → npGuess M e = M + σ * 0.85 * e →
      KElem.Within (9 / 100) ⟨M, e, some (npGuess M e)⟩ ∨ KElem.Within (3 / 50) (KElem.step ⟨M, e, some (npGuess M e)⟩) := by
    intro σ hσ hs hg
    rw [hg]
    rcases danby_start M e σ he he1 hσ hs with h | ⟨E', k1, k2⟩
    · exact .inl ⟨he, he1, _, rfl, h⟩
    · by_cases ha : KElem.active ⟨M, e, some (M + σ * 0.85 * e)⟩ = true
      · right
        unfold KElem.step
        rw [if_pos ha]
        exact ⟨he, he1, E', k1, k2⟩
      · left
        have : ¬ unconverged M e (some (M + σ * 0.85 * e)) = true := ha
        rw [unconverged_some] at this
        push Not at this
        exact ⟨he, he1, _, rfl, this.trans (by norm_num)⟩
  rcases lt_trichotomy (sin M) 0 with h | h | h
  · exact go (-1) (.inr rfl) (by linarith) (by unfold npGuess; rw [sign_neg h]; simp)
  · left
    refine ⟨he, he1, _, rfl, ?_⟩
    have : npGuess M e = M := by unfold npGuess; rw [h, sign_zero]; simp
    simp only
    rw [this]
    unfold keplerFi
    rw [h]
    norm_num
  · exact go 1 (.inl rfl) (by linarith) (by unfold npGuess; rw [sign_pos h]; simp)

theorem np_three (M e : ℝ) (he : 0 ≤ e) (he1 : e ≤ 3 / 5) : KElem.Within 1e-12 (KElem.step (KElem.step (KElem.step ⟨M, e, some (npGuess M e)⟩))) := by
  rcases np_first M e he he1 with h | h
  · have h1 := within_step (B' := 3 / 50) _ h (by norm_num) (by norm_num) (by norm_num)
    have h1' := within_step (B' := 14 / 10000) _ h (by norm_num) (by norm_num) (by norm_num)
    have h2 := within_step (B' := 1 / 10 ^ 9) _ h1' (by norm_num) (by norm_num) (by norm_num)
    exact within_step _ h2 (by norm_num) (by norm_num) (le_refl _)
  · have h1 := within_step (B' := 3 / 10000) _ h (by norm_num) (by norm_num) (by norm_num)
    exact within_step _ h1 (by norm_num) (by norm_num) (le_refl _)

theorem within_inactive {x : KElem} (h : x.Within 1e-12) : x.active = false := by
  obtain ⟨_, _, E, hE, hf⟩ := h
  unfold KElem.active
  rw [hE, Bool.eq_false_iff, Ne, unconverged_some]
  exact not_lt.mpr hf

theorem npLoop_of_steps (k : Nat) : ∀ (fuel : Nat) (l : List KElem), k ≤ fuel → (∀ x ∈ l, (KElem.step^[k] x).active = false) → npLoop fuel l = some (l.map KElem.step^[k]) := by
  induction k with
  | zero =>
    intro fuel l _ h
    unfold npLoop
    rw [if_neg]
    · simp
    · simp only [List.any_eq_true, not_exists, not_and]
      intro x hx
      simpa using h x hx
  | succ k ih =>
    intro fuel l hf h
    unfold npLoop
    obtain ⟨n, rfl⟩ : ∃ n, fuel = n + 1 := ⟨fuel - 1, by omega⟩
    by_cases ha : l.any KElem.active = true
    · rw [if_pos ha]
      simp only
      rw [ih n (l.map KElem.step) (by omega)]
      · simp [Function.comp_def, Function.iterate_succ]
      · intro x hx
        obtain ⟨y, hy, rfl⟩ := List.mem_map.mp hx
        have := h y hy
        rwa [Function.iterate_succ_apply] at this
    · rw [if_neg ha]
      congr 1
      symm
      have hfix : ∀ x ∈ l, x.step = x := by
        intro x hx
        refine active_step_of_inactive x ?_
        simp only [List.any_eq_true, not_exists, not_and] at ha
        simpa using ha x hx
      have : ∀ j, ∀ x ∈ l, KElem.step^[j] x = x := by
        intro j x hx
        exact Function.iterate_fixed (hfix x hx) j
      conv_rhs => rw [← List.map_id l]
      exact List.map_congr_left fun x hx => this _ x hx

/-! ## C167 -/

/-- The loop of `kepler`, when every entry ends after `k` passes. -/
theorem np_of_steps (k : Nat) (xs : List (ℝ × ℝ)) (passes : Nat) (hp : k ≤ passes) (hw : ∀ x ∈ xs, ∃ E, (KElem.step^[k] ⟨x.1, x.2, some (npGuess x.1 x.2)⟩).E = some E ∧ |keplerFi x.1 x.2 E| ≤ 1e-12) :
    ∃ Es : List ℝ, npKepler passes xs = some (Es.map some) ∧ List.Forall₂ (fun x E => |E - x.2 * sin E - x.1| ≤ 1e-12) xs Es := by
  have hM : ∀ (j : Nat) (y : KElem), (KElem.step^[j] y).M = y.M ∧ (KElem.step^[j] y).e = y.e := by
    have h1 : ∀ y : KElem, y.step.M = y.M ∧ y.step.e = y.e := by intro y; unfold KElem.step; split <;> exact ⟨rfl, rfl⟩
    intro j
    induction j with
    | zero => intro y; exact ⟨rfl, rfl⟩
    | succ j ih => intro y; rw [Function.iterate_succ_apply, (ih _).1, (ih _).2]; exact h1 y
  have hl : npLoop passes (npInit xs) = some ((npInit xs).map KElem.step^[k]) := by
    refine npLoop_of_steps k passes _ hp ?_
    intro y hy
    obtain ⟨x, hx, rfl⟩ := List.mem_map.mp hy
    obtain ⟨E, hE, hf⟩ := hw x hx
    unfold KElem.active
    rw [hE, (hM _ _).1, (hM _ _).2, Bool.eq_false_iff, Ne, unconverged_some]
    exact not_lt.mpr hf
  unfold npKepler
  rw [hl]
  unfold npInit
  simp only [Option.map_some, List.map_map]
  clear hl
  induction xs with
  | nil => exact ⟨[], rfl, .nil⟩
  | cons x t ih =>
    obtain ⟨Es, h1, h2⟩ := ih fun y hy => hw y (List.mem_cons_of_mem _ hy)
    obtain ⟨E, hE, hf⟩ := hw x List.mem_cons_self
    refine ⟨E :: Es, ?_, .cons hf h2⟩
    rw [Option.some.injEq] at h1 ⊢
    rw [List.map_cons, List.map_cons, h1]
    simp only [Function.comp_apply, hE]

/-- An entry on the way to the solution. -/
def KElem.Going (B : ℝ) (x : KElem) : Prop := 3 / 5 ≤ x.e ∧ x.e < 1 ∧ ∃ E, x.E = some E ∧ (|keplerFi x.M x.e E| ≤ 1e-12 ∨ (OnTrack x.M x.e E ∧ |keplerFi x.M x.e E| ≤ B))

theorem going_step {B : ℝ} (x : KElem) (h : x.Going B) : x.step.Going (B / 3) := by
  obtain ⟨he, he1, E, hE, h⟩ := h
  unfold KElem.step
  by_cases ha : x.active = true
  · rw [if_pos ha]
    have hu : unconverged x.M x.e (some E) = true := by rw [← hE]; exact ha
    rw [unconverged_some] at hu
    rcases h with h | ⟨h, hB⟩
    · exact absurd h (not_le.mpr hu)
    · obtain ⟨E', k1, k2, k3⟩ := good_step he he1 h
      refine ⟨he, he1, E', by rw [hE]; exact k1, .inr ⟨k2, k3.trans (by linarith)⟩⟩
  · rw [if_neg ha]
    have hu : ¬ unconverged x.M x.e (some E) = true := by rw [← hE]; exact ha
    rw [unconverged_some] at hu
    exact ⟨he, he1, E, hE, .inl (not_lt.mp hu)⟩

theorem going_steps (n : Nat) : ∀ {B : ℝ} (x : KElem), x.Going B → (KElem.step^[n] x).Going (B / 3 ^ n) := by
  induction n with
  | zero => intro B x h; simpa using h
  | succ n ih =>
    intro B x h
    rw [Function.iterate_succ_apply]
    have := ih _ (going_step x h)
    rwa [div_div, ← pow_succ'] at this

theorem going_first (M e : ℝ) (he : 3 / 5 ≤ e) (he1 : e < 1) : KElem.Going (17 / 20) (KElem.step ⟨M, e, some (npGuess M e)⟩) := by
  unfold KElem.step
  by_cases ha : KElem.active ⟨M, e, some (npGuess M e)⟩ = true
  · rw [if_pos ha]
    rcases good_start M e he he1 with ⟨h1, h2⟩ | ⟨E', k1, k2, k3⟩
    · obtain ⟨E', k1, k2, k3⟩ := good_step he he1 h1
      exact ⟨he, he1, E', k1, .inr ⟨k2, k3.trans (by linarith)⟩⟩
    · exact ⟨he, he1, E', k1, .inr ⟨k2, k3⟩⟩
  · rw [if_neg ha]
    have hu : ¬ unconverged M e (some (npGuess M e)) = true := ha
    rw [unconverged_some] at hu
    exact ⟨he, he1, _, rfl, .inl (not_lt.mp hu)⟩

theorem np_ends (M e : ℝ) (he : 0 ≤ e) (he1 : e < 1) : ∃ E, (KElem.step^[27] ⟨M, e, some (npGuess M e)⟩).E = some E ∧ |keplerFi M e E| ≤ 1e-12 := by
  rcases le_total e (3 / 5) with h | h
  · have h3 := np_three M e he h
    have hfix : ∀ n, KElem.step^[n + 3] ⟨M, e, some (npGuess M e)⟩ = KElem.step^[3] ⟨M, e, some (npGuess M e)⟩ := by
      intro n
      rw [Function.iterate_add_apply]
      exact Function.iterate_fixed (active_step_of_inactive _ (within_inactive h3)) n
    rw [hfix 24]
    have hM : ∀ y : KElem, y.step.M = y.M ∧ y.step.e = y.e := by intro y; unfold KElem.step; split <;> exact ⟨rfl, rfl⟩
    obtain ⟨_, _, E, hE, hf⟩ := h3
    simp only [(hM _).1, (hM _).2] at hf
    exact ⟨E, hE, hf⟩
  · have h1 := going_steps 26 _ (going_first M e h he1)
    have hM : ∀ (j : Nat) (y : KElem), (KElem.step^[j] y).M = y.M ∧ (KElem.step^[j] y).e = y.e := by
      have h1 : ∀ y : KElem, y.step.M = y.M ∧ y.step.e = y.e := by intro y; unfold KElem.step; split <;> exact ⟨rfl, rfl⟩
      intro j
      induction j with
      | zero => intro y; exact ⟨rfl, rfl⟩
      | succ j ih => intro y; rw [Function.iterate_succ_apply, (ih _).1, (ih _).2]; exact h1 y
    rw [← Function.iterate_succ_apply] at h1
    obtain ⟨_, _, E, hE, hf⟩ := h1
    simp only [(hM _ _).1, (hM _ _).2] at hf
    refine ⟨E, hE, ?_⟩
    rcases hf with hf | ⟨_, hf⟩
    · exact hf
    · exact hf.trans (by norm_num)

/-- C167 (NumPy): for every array of mean anomalies and eccentricities from 0 to 1, 1 excluded, the loop of `kepler`, which has no iteration limit, ends after at most 27 passes, and every entry of the result is a number
that solves Kepler's equation to within `1e-12`. (With real numbers; rounding is not modelled.) -/
theorem C167_numpy (xs : List (ℝ × ℝ)) (h : ∀ x ∈ xs, 0 ≤ x.2 ∧ x.2 < 1) (passes : Nat) (hp : 27 ≤ passes) :
    ∃ Es : List ℝ, npKepler passes xs = some (Es.map some) ∧ List.Forall₂ (fun x E => |E - x.2 * sin E - x.1| ≤ 1e-12) xs Es :=
  np_of_steps 27 xs passes hp fun x hx => np_ends x.1 x.2 (h x hx).1 (h x hx).2

/-- Not vacuous: three epochs with three eccentricities. -/
example : ∃ Es : List ℝ, npKepler 27 [(1, 99 / 100), (-7, 999999 / 1000000), (100, 0)] = some (Es.map some) ∧ Es.length = 3 := by
  obtain ⟨Es, h1, h2⟩ := C167_numpy [(1, 99 / 100), (-7, 999999 / 1000000), (100, 0)] (by intro x hx; simp only [List.mem_cons, List.not_mem_nil, or_false] at hx; rcases hx with rfl | rfl | rfl <;> norm_num) 27 (le_refl _)
  exact ⟨Es, h1, h2.length_eq.symm⟩

/-- C167 (NumPy): with eccentricities up to 3/5 three passes are enough. -/
theorem C167_numpy_three (xs : List (ℝ × ℝ)) (h : ∀ x ∈ xs, 0 ≤ x.2 ∧ x.2 ≤ 3 / 5) (passes : Nat) (hp : 3 ≤ passes) :
    ∃ Es : List ℝ, npKepler passes xs = some (Es.map some) ∧ List.Forall₂ (fun x E => |E - x.2 * sin E - x.1| ≤ 1e-12) xs Es := by
  refine np_of_steps 3 xs passes hp fun x hx => ?_
  have hM : ∀ y : KElem, y.step.M = y.M ∧ y.step.e = y.e := by intro y; unfold KElem.step; split <;> exact ⟨rfl, rfl⟩
  obtain ⟨_, _, E, hE, hf⟩ := np_three x.1 x.2 (h x hx).1 (h x hx).2
  simp only [(hM _).1, (hM _).2] at hf
  exact ⟨E, hE, hf⟩

/-- Not vacuous: three epochs with three eccentricities. -/
example : ∃ Es : List ℝ, npKepler 3 [(1, 3 / 5), (-7, 1 / 2), (100, 0)] = some (Es.map some) ∧ Es.length = 3 := by
  obtain ⟨Es, h1, h2⟩ := C167_numpy_three [(1, 3 / 5), (-7, 1 / 2), (100, 0)] (by intro x hx; simp only [List.mem_cons, List.not_mem_nil, or_false] at hx; rcases hx with rfl | rfl | rfl <;> norm_num) 3 (le_refl _)
  exact ⟨Es, h1, h2.length_eq.symm⟩

theorem cLoop_close (M e : ℝ) (he : 0 ≤ e) (he1 : e ≤ 3 / 5) (k : Nat) : ∀ (fuel count : Nat) (E B : ℝ), k + 1 ≤ fuel → count + k < 29 → |keplerFi M e E| ≤ B → B ≤ 1 / 10 →
    (fun b : ℝ => 21 * b ^ 4)^[k] B ≤ 1e-12 → ∃ E', cLoop 30 M e fuel count (some E) = .value (some E') ∧ |keplerFi M e E'| ≤ 1e-12 := by
  induction k with
  | zero =>
    intro fuel count E B hf _ hE _ hB
    obtain ⟨n, rfl⟩ : ∃ n, fuel = n + 1 := ⟨fuel - 1, by omega⟩
    refine ⟨E, ?_, hE.trans hB⟩
    unfold cLoop
    have : unconverged M e (some E) = false := by
      rw [Bool.eq_false_iff, Ne, unconverged_some]
      exact not_lt.mpr (hE.trans hB)
    rw [this]
    rfl
  | succ k ih =>
    intro fuel count E B hf hc hE hB hk
    obtain ⟨n, rfl⟩ : ∃ n, fuel = n + 1 := ⟨fuel - 1, by omega⟩
    by_cases hu : unconverged M e (some E) = true
    · obtain ⟨E', k1, k2⟩ := danby_close M e E he he1 (hE.trans hB)
      have hB0 : 0 ≤ B := (abs_nonneg _).trans hE
      have hB4 : B ^ 4 ≤ (1 / 10) ^ 4 := pow_le_pow_left₀ hB0 hB 4
      obtain ⟨E'', m1, m2⟩ := ih n (count + 1) E' (21 * B ^ 4) (by omega) (by omega) (k2.trans (by gcongr)) (by linarith) hk
      refine ⟨E'', ?_, m2⟩
      unfold cLoop
      rw [if_pos (by simp [hu]; omega)]
      simp only [Option.bind_some, k1]
      rw [if_neg (by omega)]
      exact m1
    · refine ⟨E, ?_, ?_⟩
      · unfold cLoop
        rw [if_neg (by simp [hu])]
      · rw [unconverged_some] at hu
        exact not_lt.mp hu

theorem cLoop_first (M e E : ℝ) (he : 0 ≤ e) (he1 : e ≤ 3 / 5) (h : |keplerFi M e E| ≤ 9 / 100 ∨ ∃ E', danby M e E = some E' ∧ |keplerFi M e E'| ≤ 3 / 50) :
    ∃ E', cLoop 30 M e 31 0 (some E) = .value (some E') ∧ |keplerFi M e E'| ≤ 1e-12 := by
  rcases h with h | ⟨E', k1, k2⟩
  · exact cLoop_close M e he he1 3 31 0 E (9 / 100) (by omega) (by omega) h (by norm_num) (by norm_num [Function.iterate_succ_apply])
  · by_cases hu : unconverged M e (some E) = true
    · obtain ⟨E'', m1, m2⟩ := cLoop_close M e he he1 2 30 1 E' (3 / 50) (by omega) (by omega) k2 (by norm_num) (by norm_num [Function.iterate_succ_apply])
      refine ⟨E'', ?_, m2⟩
      unfold cLoop
      rw [if_pos (by simp [hu])]
      simp only [Option.bind_some, k1]
      rw [if_neg (by omega)]
      exact m1
    · refine ⟨E, ?_, ?_⟩
      · unfold cLoop
        rw [if_neg (by simp [hu])]
      · rw [unconverged_some] at hu
        exact not_lt.mp hu

/-- The C solver with a small eccentricity. -/
theorem c_small (M e : ℝ) (he : 0 ≤ e) (he1 : e ≤ 3 / 5) : ∃ E : ℝ, cKepler M e = .value (some E) ∧ |keplerFi M e E| ≤ 1e-12 := by
  unfold cKepler
  refine cLoop_first M e _ he he1 ?_
  unfold cGuess cSign
  split_ifs with h1 h2
  · exact danby_start M e 1 he he1 (.inl rfl) (by linarith)
  · exact danby_start M e (-1) he he1 (.inr rfl) (by linarith)
  · right
    have : M + 0 * 0.85 * e = M := by ring
    rw [this]
    exact danby_mean M e he he1

/-- A pass of the loop of the C solver, or its end. -/
theorem cLoop_next {M e E E' : ℝ} {fuel count : Nat} (hc : count + 1 < 30) (h : danby M e E = some E') (hn : ∃ E2, cLoop 30 M e fuel (count + 1) (some E') = .value (some E2) ∧ |keplerFi M e E2| ≤ 1e-12) :
    ∃ E2, cLoop 30 M e (fuel + 1) count (some E) = .value (some E2) ∧ |keplerFi M e E2| ≤ 1e-12 := by
  by_cases hu : unconverged M e (some E) = true
  · obtain ⟨E2, m1, m2⟩ := hn
    refine ⟨E2, ?_, m2⟩
    unfold cLoop
    rw [if_pos (by simp [hu]; omega)]
    simp only [Option.bind_some, h]
    rw [if_neg (by omega)]
    exact m1
  · refine ⟨E, ?_, ?_⟩
    · unfold cLoop
      rw [if_neg (by simp [hu])]
    · rw [unconverged_some] at hu
      exact not_lt.mp hu

theorem cLoop_way (M e : ℝ) (he : 3 / 5 ≤ e) (he1 : e ≤ 99 / 100) (k : Nat) : ∀ (fuel count : Nat) (E B : ℝ), k + 1 ≤ fuel → count + k < 29 → OnWay M e E → |keplerFi M e E| ≤ B → B / 3 ^ k ≤ 1e-12 →
    ∃ E', cLoop 30 M e fuel count (some E) = .value (some E') ∧ |keplerFi M e E'| ≤ 1e-12 := by
  induction k with
  | zero =>
    intro fuel count E B hf _ _ hE hB
    obtain ⟨n, rfl⟩ : ∃ n, fuel = n + 1 := ⟨fuel - 1, by omega⟩
    rw [pow_zero, div_one] at hB
    refine ⟨E, ?_, hE.trans hB⟩
    unfold cLoop
    have : unconverged M e (some E) = false := by
      rw [Bool.eq_false_iff, Ne, unconverged_some]
      exact not_lt.mpr (hE.trans hB)
    rw [this]
    rfl
  | succ k ih =>
    intro fuel count E B hf hc hw hE hk
    obtain ⟨n, rfl⟩ : ∃ n, fuel = n + 1 := ⟨fuel - 1, by omega⟩
    obtain ⟨E', k1, k2, k3⟩ := way_step he he1 hw
    refine cLoop_next (by omega) k1 (ih n (count + 1) E' (B / 3) (by omega) (by omega) k2 (k3.trans (by linarith)) ?_)
    rwa [div_div, ← pow_succ']

/-- The C solver with an eccentricity from 3/5 to 99/100. -/
theorem c_large (M e : ℝ) (he : 3 / 5 ≤ e) (he1 : e ≤ 99 / 100) : ∃ E : ℝ, cKepler M e = .value (some E) ∧ |keplerFi M e E| ≤ 1e-12 := by
  have top : cGuess M e = npGuess M e → ∃ E : ℝ, cKepler M e = .value (some E) ∧ |keplerFi M e E| ≤ 1e-12 := by
    intro hg
    unfold cKepler
    rw [hg]
    rcases good_start M e he (by linarith) with ⟨h1, h2⟩ | ⟨E', k1, k2, k3⟩
    · exact cLoop_way M e he he1 26 31 0 _ _ (by omega) (by omega) (way_of_track h1) h2 (by norm_num)
    · exact cLoop_next (by omega) k1 (cLoop_way M e he he1 26 30 1 _ _ (by omega) (by omega) (way_of_track k2) k3 (by norm_num))
  have hcases : cGuess M e = npGuess M e ∨ cGuess M e = M := by
    unfold cGuess npGuess cSign
    split_ifs with h1 h2
    · left; rw [sign_pos (by linarith)]; simp
    · left; rw [sign_neg (by linarith)]; simp
    · right; ring
  rcases hcases with h | h
  · exact top h
  · unfold cKepler
    rw [h]
    rcases mean_start M e he he1 with ⟨h1, h2⟩ | ⟨E1, k1, ⟨h1, h2⟩ | ⟨E2, k2, h1, h2⟩⟩
    · exact cLoop_way M e he he1 26 31 0 _ _ (by omega) (by omega) h1 h2 (by norm_num)
    · exact cLoop_next (by omega) k1 (cLoop_way M e he he1 27 30 1 _ _ (by omega) (by omega) h1 h2 (by norm_num))
    · exact cLoop_next (by omega) k1 (cLoop_next (by omega) k2 (cLoop_way M e he he1 26 29 2 _ _ (by omega) (by omega) h1 h2 (by norm_num)))

/-- C167 (C, `e ≤ 0.99`): for every mean anomaly and every eccentricity between 0 and 0.99 the C solver returns a number that solves Kepler's equation to within `1e-12`; it never ends the process. Missing: eccentricities
between 0.99 and 1, for which `C167_c_violated` has a counterexample, and rounding. -/
theorem C167_c_partial (M e : ℝ) (he : 0 ≤ e) (he1 : e ≤ 99 / 100) : ∃ E : ℝ, cKepler M e = .value (some E) ∧ |E - e * sin E - M| ≤ 1e-12 := by
  rcases le_total e (3 / 5) with h | h
  · exact c_small M e he h
  · exact c_large M e h he1

/-- Not vacuous: a large eccentricity and a small mean anomaly, and the other way round. -/
example : (∃ E : ℝ, cKepler (1 / 1000) (99 / 100) = .value (some E) ∧ |E - 99 / 100 * sin E - 1 / 1000| ≤ 1e-12) ∧ ∃ E : ℝ, cKepler 50 (1 / 10) = .value (some E) ∧ |E - 1 / 10 * sin E - 50| ≤ 1e-12 :=
  ⟨C167_c_partial (1 / 1000) (99 / 100) (by norm_num) (le_refl _), C167_c_partial 50 (1 / 10) (by norm_num) (by norm_num)⟩

/-- The clamped eccentricity of `rv_drive`. -/
theorem clamp_mem (e : ℝ) : ∃ x : ℝ, (if (if e < 0 then 0 else e) > (0.99 : ℝ) then (0.99 : ℝ) else if e < 0 then 0 else e) = x ∧ 0 ≤ x ∧ x ≤ 99 / 100 ∧ (e ≤ 3 / 5 → x ≤ 3 / 5) := by
  refine ⟨_, rfl, ?_⟩
  split_ifs <;> refine ⟨?_, ?_, ?_⟩ <;> norm_num at * <;> linarith

/-- C167 for the velocities (NumPy): `rv_drive` returns a number for every time, period other than 0, time of periastron, eccentricity, argument and amplitude: eccentricities below 0 and above 0.99 are replaced. -/
theorem C167_velocity_numpy (t per tp e om k : ℝ) (_hper : per ≠ 0) (passes : Nat) (hp : 27 ≤ passes) : ∃ v, rvDrive (npSolve passes) rvNumpy t per tp e om k = some v := by
  have hn : ∀ M e : ℝ, 0 ≤ e → e < 1 → ∃ E, npSolve passes M e = some E := by
    intro M e he he1
    obtain ⟨Es, h1, h2⟩ := C167_numpy [(M, e)] (by simpa using ⟨he, he1⟩) passes hp
    cases h2 with
    | cons h3 h4 =>
      cases h4
      exact ⟨_, by unfold npSolve; rw [h1]; rfl⟩
  unfold rvDrive
  by_cases h0 : e = 0
  · simp [h0]
  · simp only [if_neg h0]
    obtain ⟨x, hx, x0, x1, -⟩ := clamp_mem e
    rw [hx]
    obtain ⟨E, hE⟩ := hn (meanAnomaly t tp (if per < 0 then 1e-4 else per)) x x0 (by linarith)
    rw [hE]
    exact ⟨_, rfl⟩

/-- Not vacuous: an eccentricity above 1 and a negative one, as a fit may try. -/
example : (∃ v, rvDrive (npSolve 27) rvNumpy 3 10 0 7 1 5 = some v) ∧ ∃ v, rvDrive (npSolve 27) rvNumpy 3 10 0 (-1) 1 5 = some v :=
  ⟨C167_velocity_numpy 3 10 0 7 1 5 (by norm_num) 27 (le_refl _), C167_velocity_numpy 3 10 0 (-1) 1 5 (by norm_num) 27 (le_refl _)⟩

/-- C167 for the velocities (C): `rv_drive` returns a number for every time, period other than 0, time of periastron, eccentricity, argument and amplitude: eccentricities below 0 and above 0.99 are replaced. -/
theorem C167_velocity_c (t per tp e om k : ℝ) (_hper : per ≠ 0) : ∃ v, rvDrive cSolve rvC t per tp e om k = some v := by
  have hc : ∀ M e : ℝ, 0 ≤ e → e ≤ 99 / 100 → ∃ E, cSolve M e = some E := by
    intro M e he he1
    obtain ⟨E, h1, _⟩ := C167_c_partial M e he he1
    exact ⟨E, by unfold cSolve; rw [h1]⟩
  unfold rvDrive
  by_cases h0 : e = 0
  · simp [h0]
  · simp only [if_neg h0]
    obtain ⟨x, hx, x0, x1, -⟩ := clamp_mem e
    rw [hx]
    obtain ⟨E', hE'⟩ := hc (meanAnomaly t tp (if per < 0 then 1e-4 else per)) x x0 x1
    rw [hE']
    exact ⟨_, rfl⟩

/-- Not vacuous: an eccentricity above 1 and a negative one, as a fit may try. -/
example : (∃ v, rvDrive cSolve rvC 3 10 0 7 1 5 = some v) ∧ ∃ v, rvDrive cSolve rvC 3 10 0 (-1) 1 5 = some v :=
  ⟨C167_velocity_c 3 10 0 7 1 5 (by norm_num), C167_velocity_c 3 10 0 (-1) 1 5 (by norm_num)⟩

end Radvel
