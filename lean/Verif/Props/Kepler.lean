import Verif.Model.Kepler
import Verif.Spec.Kepler
import Mathlib.Analysis.Calculus.MeanValue
import Mathlib.Analysis.SpecialFunctions.Trigonometric.Deriv
import Mathlib.Analysis.SpecialFunctions.Trigonometric.Bounds
import Mathlib.Analysis.Real.Pi.Bounds
import Mathlib.Analysis.SpecialFunctions.Trigonometric.Inverse
import Mathlib.Tactic.Linarith
import Mathlib.Tactic.FieldSimp
import Mathlib.Tactic.Positivity

/-!
# C18-C20: the Kepler solvers
-/

namespace Radvel
open Real

/-! ## C18 -/

theorem npLoop_post (fuel : Nat) (l r : List KElem) (h : npLoop fuel l = some r) :
    (∀ x ∈ r, x.active = false) ∧ r.map KElem.M = l.map KElem.M ∧ r.map KElem.e = l.map KElem.e := by
  induction fuel generalizing l with
  | zero =>
    unfold npLoop at h
    split at h
    · cases h
    · next hc => cases h; refine ⟨?_, rfl, rfl⟩; simpa using hc
  | succ n ih =>
    unfold npLoop at h
    split at h
    · obtain ⟨h1, h2, h3⟩ := ih _ h
      refine ⟨h1, h2.trans ?_, h3.trans ?_⟩
      · rw [List.map_map]; apply List.map_congr_left; intro x _; simp [KElem.step]; split <;> rfl
      · rw [List.map_map]; apply List.map_congr_left; intro x _; simp [KElem.step]; split <;> rfl
    · next hc => cases h; refine ⟨?_, rfl, rfl⟩; simpa using hc

/-- C18 (NumPy): whenever `kepler` returns - after any number of iterations - it returns one entry per input, and every number it returns
satisfies Kepler's equation to within `1e-12`. Missing from the full statement: entries that are not numbers (a zero denominator gives
nan, which the convergence test accepts), see `C18_nan_violated`. -/
theorem C18_numpy_partial (fuel : Nat) (xs : List (ℝ × ℝ)) (r : List (Option ℝ)) (h : npKepler fuel xs = some r) :
    r.length = xs.length ∧
    ∀ (i : Nat) M e E, xs[i]? = some (M, e) → r[i]? = some (some E) → |E - e * sin E - M| ≤ 1e-12 := by
  unfold npKepler at h
  rw [Option.map_eq_some_iff] at h
  obtain ⟨l, h1, rfl⟩ := h
  obtain ⟨a, b, c⟩ := npLoop_post _ _ _ h1
  have hM : (npInit xs).map KElem.M = xs.map Prod.fst := by simp [npInit, Function.comp_def]
  have he : (npInit xs).map KElem.e = xs.map Prod.snd := by simp [npInit, Function.comp_def]
  rw [hM] at b; rw [he] at c
  have hlen : l.length = xs.length := by simpa using congrArg List.length b
  refine ⟨by simpa using hlen, ?_⟩
  intro i M e E hx hr
  rw [List.getElem?_map, Option.map_eq_some_iff] at hr
  obtain ⟨x, hx', hE⟩ := hr
  have b' := congrArg (·[i]?) b
  have c' := congrArg (·[i]?) c
  simp only [List.getElem?_map, hx, hx', Option.map_some, Option.some.injEq] at b' c'
  have := a x (List.mem_of_getElem? hx')
  simp only [KElem.active, unconverged, hE, b', c', decide_eq_false_iff_not, not_lt, keplerFi, conv] at this
  exact this

theorem cLoop_post (M e : ℝ) (fuel count : Nat) (E E' : Option ℝ) (hf : 30 < fuel + count) (hc : count < 30)
    (h : cLoop 30 M e fuel count E = .value E') : unconverged M e E' = false := by
  induction fuel generalizing count E with
  | zero => omega
  | succ n ih =>
    unfold cLoop at h
    split at h
    · split at h
      · cases h
      · next hne => exact ih (count + 1) _ (by omega) (by omega) h
    · next hcond =>
      cases h
      simp [hc] at hcond
      exact hcond

/-- C18 (C): the C solver either terminates the process or returns; a returned number satisfies Kepler's equation to within `1e-12`.
Missing: a returned nan, see `C18_c_nan_violated`. -/
theorem C18_c_partial (M e : ℝ) :
    cKepler M e = .exit ∨ ∃ E, cKepler M e = .value E ∧ ∀ E', E = some E' → |E' - e * sin E' - M| ≤ 1e-12 := by
  cases h : cKepler M e with
  | exit => exact Or.inl rfl
  | value E =>
    refine Or.inr ⟨E, rfl, ?_⟩
    rintro E' rfl
    have := cLoop_post M e 31 0 _ _ (by omega) (by omega) h
    simpa [unconverged, keplerFi, conv] using this

/-- C18 is false for unphysical eccentricities: with `e = 2`, `M = π/3` the derivative vanishes, the step produces nan, and the C solver
returns it as converged. -/
theorem C18_c_nan_violated : cKepler (π / 3) 2 = .value none := by
  have hs : sin (π / 3) = √3 / 2 := Real.sin_pi_div_three
  have h3 : √3 < 2 := by rw [Real.sqrt_lt' (by norm_num)]; norm_num
  have h3' : 0 < √3 := by positivity
  have hg : cGuess (π / 3) 2 = π / 3 := by
    have h1 : ¬ (1 : ℝ) ≤ √3 / 2 := by linarith
    have h2 : ¬ (√3 / 2 ≤ -1) := by linarith
    simp [cGuess, hs, cSign, h1, h2]
  have hu : unconverged (π / 3) 2 (some (π / 3)) = true := by
    have h1 : (1.5 : ℝ) < √3 := by rw [Real.lt_sqrt (by norm_num)]; norm_num
    have : keplerFi (π / 3) 2 (π / 3) = -√3 := by simp [keplerFi, hs]; ring
    simp only [unconverged, this, conv, abs_neg, abs_of_pos h3', decide_eq_true_eq]
    norm_num at h1 ⊢; linarith
  have hd : danby (π / 3) 2 (π / 3) = none := by
    simp [danby, Real.cos_pi_div_three]
  unfold cKepler cLoop
  simp only [hg, hu, Option.bind_some, hd]
  simp [cLoop, unconverged]

/-- C18 is false for unphysical eccentricities, NumPy solver: there is a mean anomaly for which `kepler` returns nan at `e = 10`. -/
theorem C18_nan_violated : ∃ M : ℝ, npKepler 1 [(M, 10)] = some [none] := by
  refine ⟨-arccos 0.1 - 8.5, ?_⟩
  have hc : cos (arccos 0.1) = 0.1 := Real.cos_arccos (by norm_num) (by norm_num)
  have hpos : 0 ≤ arccos 0.1 := Real.arccos_nonneg _
  have hle : arccos 0.1 ≤ π / 2 := Real.arccos_le_pi_div_two.2 (by norm_num)
  have hs0 : 0 ≤ sin (arccos 0.1) := Real.sin_nonneg_of_nonneg_of_le_pi hpos (by linarith [Real.pi_pos])
  have hge : 1 < arccos 0.1 := by
    by_contra h
    push Not at h
    have := Real.cos_le_cos_of_nonneg_of_le_pi hpos (by linarith [Real.pi_gt_three]) h
    rw [hc] at this
    linarith [Real.cos_one_pos, Real.one_sub_sq_div_two_le_cos (x := 1)]
  have hπ1 := Real.pi_gt_d2
  have hπ2 := Real.pi_lt_d2
  have hsin : 0 < sin (-arccos 0.1 - 8.5) := by
    have h : sin (-arccos 0.1 - 8.5) = sin (-arccos 0.1 - 8.5 + (2 : ℤ) * (2 * π)) := (Real.sin_add_int_mul_two_pi _ 2).symm
    rw [h]
    apply Real.sin_pos_of_pos_of_lt_pi
    · push_cast; norm_num at hπ1 ⊢; linarith
    · push_cast; norm_num at hπ2 hge ⊢; linarith
  have hg : npGuess (-arccos 0.1 - 8.5) 10 = -arccos 0.1 := by
    rw [npGuess, sign_pos hsin]; norm_num
  have hfi : keplerFi (-arccos 0.1 - 8.5) 10 (-arccos 0.1) = 8.5 + 10 * sin (arccos 0.1) := by
    rw [keplerFi, Real.sin_neg]; ring
  have hu : unconverged (-arccos 0.1 - 8.5) 10 (some (-arccos 0.1)) = true := by
    simp only [unconverged, hfi, conv, decide_eq_true_eq]
    rw [abs_of_pos (by positivity)]
    norm_num; linarith
  have hd : danby (-arccos 0.1 - 8.5) 10 (-arccos 0.1) = none := by
    have h1 : (1 - 10 * cos (-arccos 0.1) : ℝ) = 0 := by rw [Real.cos_neg, hc]; norm_num
    simp only [danby, h1, if_true]
  have hn : unconverged (-arccos 0.1 - 8.5) 10 none = false := rfl
  simp only [npKepler, npInit, List.map, hg, npLoop, KElem.active, KElem.step, hu, List.any, if_true, Option.bind_some,
    hd, hn, Bool.or_false, Bool.false_eq_true, if_false, Option.map_some]

/-- Non-vacuity: at `M = 0` the first guess already satisfies the equation, and the solver returns it. -/
theorem npKepler_zero : npKepler 0 [(0, 0.5), (0, 0.3)] = some [some 0, some 0] := by
  have h1 : ∀ e : ℝ, npGuess 0 e = 0 := by intro e; simp [npGuess]
  have h2 : ∀ e : ℝ, KElem.active { M := 0, e := e, E := some 0 } = false := by
    intro e; simp [KElem.active, unconverged, keplerFi, conv]; norm_num
  simp [npKepler, npInit, npLoop, h1, h2]

/-! ## C20 -/

theorem active_step_of_inactive (x : KElem) (h : x.active = false) : x.step = x := by
  simp [KElem.step, h]

/-- C20: solving an array gives for every epoch the value obtained by solving that epoch alone (with the same bound on the number of passes). -/
theorem C20_elementwise (fuel : Nat) (xs : List (ℝ × ℝ)) (r : List (Option ℝ)) (h : npKepler fuel xs = some r) :
    r.length = xs.length ∧
    ∀ (i : Nat) x v, xs[i]? = some x → r[i]? = some v → npKepler fuel [x] = some [v] := by
  have key : ∀ (fuel : Nat) (l r : List KElem), npLoop fuel l = some r → r.length = l.length ∧
      ∀ (i : Nat) x y, l[i]? = some x → r[i]? = some y → npLoop fuel [x] = some [y] := by
    intro fuel
    induction fuel with
    | zero =>
      intro l r h
      unfold npLoop at h
      split at h
      · cases h
      · next hc =>
        cases h
        refine ⟨rfl, ?_⟩
        intro i x y hx hy
        rw [hx] at hy; cases hy
        have : x.active = false := by
          simp at hc; exact hc x (List.mem_of_getElem? hx)
        simp [npLoop, this]
    | succ n ih =>
      intro l r h
      unfold npLoop at h
      split at h
      · obtain ⟨h1, h2⟩ := ih _ _ h
        refine ⟨by simpa using h1, ?_⟩
        intro i x y hx hy
        have := h2 i x.step y (by simp [hx]) hy
        by_cases hxa : x.active = true
        · unfold npLoop; simp [hxa, this]
        · have hxa' : x.active = false := by simpa using hxa
          rw [active_step_of_inactive x hxa'] at this
          unfold npLoop
          simp [hxa']
          unfold npLoop at this
          simpa [hxa'] using this
      · next hc =>
        cases h
        refine ⟨rfl, ?_⟩
        intro i x y hx hy
        rw [hx] at hy; cases hy
        have : x.active = false := by
          simp at hc; exact hc x (List.mem_of_getElem? hx)
        unfold npLoop
        simp [this]
  unfold npKepler at h
  rw [Option.map_eq_some_iff] at h
  obtain ⟨l, h1, rfl⟩ := h
  obtain ⟨a, b⟩ := key _ _ _ h1
  refine ⟨by simpa [npInit] using a, ?_⟩
  intro i x v hx hv
  rw [List.getElem?_map, Option.map_eq_some_iff] at hv
  obtain ⟨y, hy, rfl⟩ := hv
  have := b i { M := x.1, e := x.2, E := some (npGuess x.1 x.2) } y (by simp [npInit, hx]) hy
  simp [npKepler, npInit, this]

example : npKepler 0 [(0, 0.5), (0, 0.3)] = some [some 0, some 0] := npKepler_zero

/-! ## C19 -/

theorem abs_sin_sub_le (a b : ℝ) : |sin a - sin b| ≤ |a - b| := by
  have h : sin a - sin b = 2 * sin ((a - b) / 2) * cos ((a + b) / 2) := Real.sin_sub_sin a b
  rw [h, abs_mul, abs_mul]
  have h1 : |sin ((a - b) / 2)| ≤ |(a - b) / 2| := Real.abs_sin_le_abs
  have h2 : |cos ((a + b) / 2)| ≤ 1 := Real.abs_cos_le_one _
  have h3 : |(a - b) / 2| = |a - b| / 2 := by rw [abs_div]; norm_num
  have h4 : 0 ≤ |sin ((a - b) / 2)| := abs_nonneg _
  have h5 : |(2 : ℝ)| = 2 := by norm_num
  rw [h5]
  nlinarith

/-- The map `E ↦ E - e sin E` expands distances by at least `1 - e`. -/
theorem kepler_expand (e a b : ℝ) (he : 0 ≤ e) :
    (1 - e) * |a - b| ≤ |(a - e * sin a) - (b - e * sin b)| := by
  have h1 := abs_sin_sub_le a b
  have h2 : |a - b| - |e * (sin a - sin b)| ≤ |(a - b) - e * (sin a - sin b)| := abs_sub_abs_le_abs_sub _ _
  rw [abs_mul, abs_of_nonneg he] at h2
  have h3 : (a - e * sin a) - (b - e * sin b) = (a - b) - e * (sin a - sin b) := by ring
  rw [h3]
  nlinarith [abs_nonneg (a - b)]

theorem ecc_exists (e M : ℝ) (he : 0 ≤ e) (he1 : e < 1) : ∃ E, IsEccAnomaly e M E := by
  have hc : Continuous (fun E : ℝ => E - e * sin E) := by fun_prop
  have hs : ∀ x : ℝ, |e * sin x| ≤ 1 := by
    intro x; rw [abs_mul, abs_of_nonneg he]
    have := Real.abs_sin_le_one x
    nlinarith [abs_nonneg (sin x)]
  have := intermediate_value_Icc (a := M - 1) (b := M + 1) (by linarith) hc.continuousOn
  have hm : M ∈ Set.Icc ((M - 1) - e * sin (M - 1)) ((M + 1) - e * sin (M + 1)) := by
    have h1 := abs_le.1 (hs (M - 1)); have h2 := abs_le.1 (hs (M + 1))
    constructor <;> linarith
  obtain ⟨E, _, hE⟩ := this hm
  exact ⟨E, hE⟩

/-- C19: for `0 ≤ e < 1` every mean anomaly has exactly one eccentric anomaly. -/
theorem C19_unique (e M : ℝ) (he : 0 ≤ e) (he1 : e < 1) : ∃! E, IsEccAnomaly e M E := by
  obtain ⟨E, hE⟩ := ecc_exists e M he he1
  refine ⟨E, hE, ?_⟩
  intro E' hE'
  have h := kepler_expand e E' E he
  rw [show E' - e * sin E' = M from hE', show E - e * sin E = M from hE, sub_self, abs_zero] at h
  have : |E' - E| ≤ 0 := by
    by_contra hc
    push Not at hc
    nlinarith
  have := abs_nonpos_iff.1 this
  linarith

/-- C19: any value meeting the solvers' tolerance is within `1e-12/(1-e)` of the exact anomaly. -/
theorem C19_error (e M E E' : ℝ) (he : 0 ≤ e) (he1 : e < 1) (hE : IsEccAnomaly e M E)
    (hE' : |E' - e * sin E' - M| ≤ 1e-12) : |E' - E| ≤ 1e-12 / (1 - e) := by
  have h := kepler_expand e E' E he
  rw [show E - e * sin E = M from hE] at h
  rw [le_div_iff₀ (by linarith)]
  linarith

/-- C19: the C and the NumPy solver agree to `2e-12/(1-e)` whenever both return, whatever their first guesses. -/
theorem C19_solvers_agree (fuel : Nat) (e M E E' : ℝ) (he : 0 ≤ e) (he1 : e < 1)
    (h1 : npKepler fuel [(M, e)] = some [some E]) (h2 : cKepler M e = .value (some E')) :
    |E - E'| ≤ 2e-12 / (1 - e) := by
  have a1 := (C18_numpy_partial fuel _ _ h1).2 0 M e E rfl rfl
  have a2 : |E' - e * sin E' - M| ≤ 1e-12 := by
    rcases C18_c_partial M e with h | ⟨E0, h, h'⟩
    · rw [h2] at h; cases h
    · rw [h2] at h; cases h; exact h' E' rfl
  obtain ⟨X, hX⟩ := ecc_exists e M he he1
  have b1 := C19_error e M X E he he1 hX a1
  have b2 := C19_error e M X E' he he1 hX a2
  have : |E - E'| ≤ |E - X| + |E' - X| := by
    have := abs_sub_le E X E'
    rwa [abs_sub_comm X E'] at this
  have h3 : (2e-12 : ℝ) / (1 - e) = 1e-12 / (1 - e) + 1e-12 / (1 - e) := by ring
  linarith

example : IsEccAnomaly 0.5 0 0 ∧ (0 : ℝ) ≤ 0.5 ∧ (0.5 : ℝ) < 1 := by
  refine ⟨by simp [IsEccAnomaly], by norm_num, by norm_num⟩

end Radvel
