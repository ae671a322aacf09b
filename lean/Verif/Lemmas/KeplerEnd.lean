import Verif.Model.Kepler
import Mathlib.Analysis.Calculus.Taylor
import Mathlib.Analysis.SpecialFunctions.Trigonometric.Deriv
import Mathlib.Analysis.SpecialFunctions.Trigonometric.DerivHyp
import Mathlib.Analysis.SpecialFunctions.Trigonometric.Bounds
import Mathlib.Analysis.Real.Pi.Bounds
import Mathlib.Tactic.Linarith
import Mathlib.Tactic.FieldSimp
import Mathlib.Tactic.LinearCombination

/-! # Lemmas for C167: how fast the corrections of the Kepler solvers converge for eccentricities up to 3/5 -/

namespace Radvel
open Real

/-- The sine to third order. -/
theorem sin_taylor (E d : ℝ) : |sin (E + d) - (sin E + cos E * d - sin E * d ^ 2 / 2 - cos E * d ^ 3 / 6)| ≤ d ^ 4 / 24 := by
  rcases eq_or_ne d 0 with rfl | hd
  · simp
  · have hx : (0 : ℝ) ≠ d := hd.symm
    obtain ⟨x, _, hx2⟩ := taylor_mean_remainder_lagrange_iteratedDeriv (f := fun y => sin (E + y)) (n := 3) hx (by fun_prop)
    have hi : ∀ n, iteratedDeriv n (fun y => sin (E + y)) = fun y => iteratedDeriv n sin (E + y) := by
      intro n
      exact iteratedDeriv_comp_const_add n sin E
    have hw : ∀ n, iteratedDerivWithin n (fun y => sin (E + y)) (Set.uIcc 0 d) 0 = iteratedDeriv n sin E := by
      intro n
      rw [iteratedDerivWithin_eq_iteratedDeriv (uniqueDiffOn_uIcc hx) (by fun_prop) Set.left_mem_uIcc, hi]
      simp
    simp only [taylorWithinEval_succ, taylor_within_zero_eval, hw, hi] at hx2
    have e1 : iteratedDeriv 1 sin = cos := by rw [iteratedDeriv_one]; simp
    have e2 : iteratedDeriv 2 sin = fun x => - sin x := by rw [iteratedDeriv_succ, e1]; simp
    have e3 : iteratedDeriv 3 sin = fun x => - cos x := by rw [iteratedDeriv_succ, e2]; ext x; simp
    norm_num [e1, e2, e3, Nat.factorial] at hx2
    have h5 : sin (E + d) - (sin E + cos E * d - sin E * d ^ 2 / 2 - cos E * d ^ 3 / 6) = sin (E + x) * (d ^ 4 / 24) := by
      linear_combination hx2
    rw [h5, abs_mul, abs_of_nonneg (by positivity : (0 : ℝ) ≤ d ^ 4 / 24)]
    exact mul_le_of_le_one_left (by positivity) (abs_sin_le_one _)

/-- The second denominator of a correction. -/
noncomputable def den1 (f p q : ℝ) : ℝ := p + -f / p * q / 2

/-- The third denominator of a correction. -/
noncomputable def den2 (f p q r : ℝ) : ℝ := p + -f / den1 f p q * q / 2 + -f / den1 f p q * (-f / den1 f p q) * r / 6

theorem danby_eq (M e E : ℝ) (hp : 0 < 1 - e * cos E) (h1 : 0 < den1 (keplerFi M e E) (1 - e * cos E) (e * sin E))
    (h2 : 0 < den2 (keplerFi M e E) (1 - e * cos E) (e * sin E) (e * cos E)) :
    danby M e E = some (E + -keplerFi M e E / den2 (keplerFi M e E) (1 - e * cos E) (e * sin E) (e * cos E)) := by
  unfold danby
  have hr : 1 - (1 - e * cos E) = e * cos E := by ring
  simp only [hr]
  unfold den2 den1 at *
  rw [if_neg hp.ne', if_neg h1.ne', if_neg h2.ne']

/-- One correction, from bounds on its three trial steps. -/
theorem danby_core {M e E a b c T L : ℝ} (he : 0 ≤ e) (he1 : e ≤ 3 / 5) (hp : 0 < 1 - e * cos E) (hL : 0 < L) (hL1 : L ≤ den1 (keplerFi M e E) (1 - e * cos E) (e * sin E))
    (h2 : 0 < den2 (keplerFi M e E) (1 - e * cos E) (e * sin E) (e * cos E)) (hT : |e * sin E| ≤ T * (1 - e * cos E)) (ha : |keplerFi M e E| ≤ a * (1 - e * cos E))
    (hb : |keplerFi M e E| ≤ b * den1 (keplerFi M e E) (1 - e * cos E) (e * sin E)) (hc : |keplerFi M e E| ≤ c * den2 (keplerFi M e E) (1 - e * cos E) (e * sin E) (e * cos E)) :
    ∃ E', danby M e E = some E' ∧ |keplerFi M e E'| ≤ c ^ 2 * ((a * b * T * (3 / 20) + b ^ 2 / 10) / L) * (3 / 10 + (c + b) / 10) + c ^ 4 / 40 := by
  have h1 : 0 < den1 (keplerFi M e E) (1 - e * cos E) (e * sin E) := hL.trans_le hL1
  refine ⟨_, danby_eq M e E hp h1 h2, ?_⟩
  have hD1 : den1 (keplerFi M e E) (1 - e * cos E) (e * sin E) = 1 - e * cos E + -keplerFi M e E / (1 - e * cos E) * (e * sin E) / 2 := rfl
  have hD2 : den2 (keplerFi M e E) (1 - e * cos E) (e * sin E) (e * cos E) = 1 - e * cos E + -keplerFi M e E / den1 (keplerFi M e E) (1 - e * cos E) (e * sin E) * (e * sin E) / 2 +
    -keplerFi M e E / den1 (keplerFi M e E) (1 - e * cos E) (e * sin E) * (-keplerFi M e E / den1 (keplerFi M e E) (1 - e * cos E) (e * sin E)) * (e * cos E) / 6 := rfl
  set f := keplerFi M e E with hf
  set D1 := den1 f (1 - e * cos E) (e * sin E) with hD1'
  set D2 := den2 f (1 - e * cos E) (e * sin E) (e * cos E) with hD2'
  set d1 := -f / (1 - e * cos E) with hd1
  set d2 := -f / D1 with hd2
  set d3 := -f / D2 with hd3
  have m1 : d1 * (1 - e * cos E) = -f := by rw [hd1]; field_simp
  have m2 : d2 * D1 = -f := by rw [hd2]; field_simp
  have m3 : d3 * D2 = -f := by rw [hd3]; field_simp
  clear_value D1 D2 d1 d2 d3
  have hq : |e * sin E| ≤ 3 / 5 := by
    rw [abs_mul, abs_of_nonneg he]
    have := abs_sin_le_one E
    have := abs_nonneg (sin E)
    nlinarith
  have hr : |e * cos E| ≤ 3 / 5 := by
    rw [abs_mul, abs_of_nonneg he]
    have := abs_cos_le_one E
    have := abs_nonneg (cos E)
    nlinarith
  have ha' : |d1| ≤ a := by
    have : |d1| * (1 - e * cos E) = |f| := by rw [← abs_of_pos hp, ← abs_mul, m1, abs_neg]
    exact le_of_mul_le_mul_right (this ▸ ha) hp
  have hb' : |d2| ≤ b := by
    have : |d2| * D1 = |f| := by rw [← abs_of_pos h1, ← abs_mul, m2, abs_neg]
    exact le_of_mul_le_mul_right (this ▸ hb) h1
  have hc' : |d3| ≤ c := by
    have : |d3| * D2 = |f| := by rw [← abs_of_pos h2, ← abs_mul, m3, abs_neg]
    exact le_of_mul_le_mul_right (this ▸ hc) h2
  have a0 : 0 ≤ a := (abs_nonneg _).trans ha'
  have b0 : 0 ≤ b := (abs_nonneg _).trans hb'
  have c0 : 0 ≤ c := (abs_nonneg _).trans hc'
  have T0 : 0 ≤ T := by
    by_contra h
    push Not at h
    have := abs_nonneg (e * sin E)
    nlinarith
  -- the differences of the trial steps
  have e21 : (d2 - d1) * (1 - e * cos E) = -(d2 * d1 * (e * sin E) / 2) := by
    have : d2 * (1 - e * cos E + d1 * (e * sin E) / 2) = d1 * (1 - e * cos E) := by rw [← hD1, m2, m1]
    linear_combination this
  have b21 : |d2 - d1| ≤ a * b * T / 2 := by
    have h : |d2 - d1| * (1 - e * cos E) = |d2| * |d1| * |e * sin E| / 2 := by
      rw [← abs_of_pos hp, ← abs_mul, e21, abs_neg, abs_div, abs_mul, abs_mul]
      norm_num
    have h' : |d2| * |d1| * |e * sin E| / 2 ≤ a * b * T / 2 * (1 - e * cos E) := by
      have : |d2| * |d1| * |e * sin E| ≤ b * a * (T * (1 - e * cos E)) := by gcongr
      linarith
    exact le_of_mul_le_mul_right (h ▸ h') hp
  have eDD : D2 - D1 = (d2 - d1) * (e * sin E) / 2 + d2 * d2 * (e * cos E) / 6 := by rw [hD2, hD1]; ring
  have bDD : |D2 - D1| ≤ a * b * T * (3 / 20) + b ^ 2 / 10 := by
    rw [eDD]
    refine (abs_add_le _ _).trans ?_
    rw [abs_div, abs_div, abs_mul (d2 - d1), abs_mul (d2 * d2)]
    have h1 : |d2 - d1| * |e * sin E| ≤ a * b * T / 2 * (3 / 5) := by gcongr
    have h2 : |d2| * |d2| * |e * cos E| ≤ b * b * (3 / 5) := by gcongr
    rw [abs_mul d2 d2, abs_of_pos (by norm_num : (0 : ℝ) < 2), abs_of_pos (by norm_num : (0 : ℝ) < 6)]
    linarith
  have e32 : (d3 - d2) * D1 = -(d3 * (D2 - D1)) := by linear_combination m3 - m2
  have b32 : |d3 - d2| ≤ c * ((a * b * T * (3 / 20) + b ^ 2 / 10) / L) := by
    have h : |d3 - d2| * D1 = |d3| * |D2 - D1| := by
      have h := congrArg abs e32
      rwa [abs_neg, abs_mul, abs_mul, abs_of_pos h1] at h
    have h3 : |d3 - d2| * L ≤ c * (a * b * T * (3 / 20) + b ^ 2 / 10) := by
      calc |d3 - d2| * L ≤ |d3 - d2| * D1 := by gcongr
        _ = |d3| * |D2 - D1| := h
        _ ≤ _ := by gcongr
    rw [← mul_div_assoc, le_div_iff₀ hL]
    exact h3
  -- Taylor
  have ht := sin_taylor E d3
  have key : keplerFi M e (E + d3) = d3 * ((d3 - d2) * (e * sin E / 2 + e * cos E * (d3 + d2) / 6)) - e * (sin (E + d3) - (sin E + cos E * d3 - sin E * d3 ^ 2 / 2 - cos E * d3 ^ 3 / 6)) := by
    have hf' : f = E - e * sin E - M := rfl
    unfold keplerFi
    have h0 : E - e * sin E - M = -(d3 * (1 - e * cos E + d2 * (e * sin E) / 2 + d2 * d2 * (e * cos E) / 6)) := by rw [← hf', ← hD2, m3]; ring
    linear_combination h0
  rw [key]
  refine (abs_sub _ _).trans ?_
  rw [abs_mul, abs_mul, abs_mul e, abs_of_nonneg he]
  have hlast : |e * sin E / 2 + e * cos E * (d3 + d2) / 6| ≤ 3 / 10 + (c + b) / 10 := by
    refine (abs_add_le _ _).trans ?_
    rw [abs_div, abs_div, abs_mul _ (d3 + d2)]
    have h1 : |e * cos E| * |d3 + d2| ≤ 3 / 5 * (c + b) := by
      have := (abs_add_le d3 d2).trans (add_le_add hc' hb')
      gcongr
    rw [abs_of_pos (by norm_num : (0 : ℝ) < 2), abs_of_pos (by norm_num : (0 : ℝ) < 6)]
    linarith
  have hd4 : d3 ^ 4 ≤ c ^ 4 := by
    rw [← abs_of_nonneg (by positivity : (0 : ℝ) ≤ d3 ^ 4), abs_pow]
    gcongr
  have hA : |d3| * (|d3 - d2| * |e * sin E / 2 + e * cos E * (d3 + d2) / 6|) ≤ c * (c * ((a * b * T * (3 / 20) + b ^ 2 / 10) / L) * (3 / 10 + (c + b) / 10)) := by gcongr
  have hB : e * |sin (E + d3) - (sin E + cos E * d3 - sin E * d3 ^ 2 / 2 - cos E * d3 ^ 3 / 6)| ≤ 3 / 5 * (c ^ 4 / 24) := by
    have : |sin (E + d3) - (sin E + cos E * d3 - sin E * d3 ^ 2 / 2 - cos E * d3 ^ 3 / 6)| ≤ c ^ 4 / 24 := ht.trans (by linarith)
    gcongr
  linarith

theorem sin_le_slope (e E : ℝ) (he : 0 ≤ e) (he1 : e ≤ 3 / 5) : 2 / 5 ≤ 1 - e * cos E ∧ |e * sin E| ≤ 3 / 4 * (1 - e * cos E) ∧ |e * sin E| ≤ 3 / 5 ∧ |e * cos E| ≤ 3 / 5 := by
  have hs := sin_sq_add_cos_sq E
  have hc := cos_le_one E
  have h0 : 2 / 5 ≤ 1 - e * cos E := by nlinarith
  have hsum : (e * sin E) ^ 2 + (e * cos E) ^ 2 ≤ 9 / 25 := by
    have : (e * sin E) ^ 2 + (e * cos E) ^ 2 = e ^ 2 := by linear_combination e ^ 2 * hs
    nlinarith
  refine ⟨h0, ?_, ?_, ?_⟩
  · refine abs_le_of_sq_le_sq ?_ (by linarith)
    nlinarith [sq_nonneg (5 / 4 * (1 - e * cos E) - 4 / 5)]
  · refine abs_le_of_sq_le_sq ?_ (by norm_num)
    nlinarith [sq_nonneg (e * cos E)]
  · refine abs_le_of_sq_le_sq ?_ (by norm_num)
    nlinarith [sq_nonneg (e * sin E)]

/-- Close to the solution a correction reduces the error to its fourth power. -/
theorem danby_close (M e E : ℝ) (he : 0 ≤ e) (he1 : e ≤ 3 / 5) (hf : |keplerFi M e E| ≤ 1 / 10) :
    ∃ E', danby M e E = some E' ∧ |keplerFi M e E'| ≤ 21 * |keplerFi M e E| ^ 4 := by
  obtain ⟨hp, hT, hq, hr⟩ := sin_le_slope e E he he1
  have hp0 : 0 < 1 - e * cos E := by linarith
  have f0 := abs_nonneg (keplerFi M e E)
  have hD1 : 9 / 25 ≤ den1 (keplerFi M e E) (1 - e * cos E) (e * sin E) := by
    unfold den1
    have h : |-keplerFi M e E / (1 - e * cos E) * (e * sin E)| ≤ 1 / 10 * (3 / 4) := by
      rw [div_mul_eq_mul_div, abs_div, abs_mul, abs_neg, abs_of_pos hp0, div_le_iff₀ hp0]
      calc _ ≤ 1 / 10 * (3 / 4 * (1 - e * cos E)) := by gcongr
        _ = _ := by ring
    have := (abs_le.mp h).1
    linarith
  have hD10 : 0 < den1 (keplerFi M e E) (1 - e * cos E) (e * sin E) := by linarith
  have hd2 : |-keplerFi M e E / den1 (keplerFi M e E) (1 - e * cos E) (e * sin E)| ≤ 5 / 18 := by
    rw [abs_div, abs_neg, abs_of_pos hD10, div_le_iff₀ hD10]
    linarith
  have hD2 : 3 / 10 ≤ den2 (keplerFi M e E) (1 - e * cos E) (e * sin E) (e * cos E) := by
    unfold den2
    set d := -keplerFi M e E / den1 (keplerFi M e E) (1 - e * cos E) (e * sin E)
    have h1 : |d * (e * sin E)| ≤ 5 / 18 * (3 / 5) := by rw [abs_mul]; gcongr
    have h2 : |d * d * (e * cos E)| ≤ 5 / 18 * (5 / 18) * (3 / 5) := by rw [abs_mul, abs_mul]; gcongr
    have h3 := (abs_le.mp h1).1
    have h4 := (abs_le.mp h2).1
    linarith
  have hD20 : 0 < den2 (keplerFi M e E) (1 - e * cos E) (e * sin E) (e * cos E) := by linarith
  obtain ⟨E', h1, h2⟩ := danby_core (a := 5 / 2 * |keplerFi M e E|) (b := 25 / 9 * |keplerFi M e E|) (c := 10 / 3 * |keplerFi M e E|) he he1 hp0 (by norm_num) hD1 hD20 hT
    (by nlinarith) (by nlinarith) (by nlinarith)
  refine ⟨E', h1, h2.trans ?_⟩
  set x := |keplerFi M e E|
  have e1 : (10 / 3 * x) ^ 2 * ((5 / 2 * x * (25 / 9 * x) * (3 / 4) * (3 / 20) + (25 / 9 * x) ^ 2 / 10) / (9 / 25)) * (3 / 10 + (10 / 3 * x + 25 / 9 * x) / 10) + (10 / 3 * x) ^ 4 / 40 =
      x ^ 4 * ((10 / 3) ^ 2 * ((5 / 2 * (25 / 9) * (3 / 4) * (3 / 20) + (25 / 9) ^ 2 / 10) / (9 / 25)) * (3 / 10 + 11 / 18 * x) + (10 / 3) ^ 4 / 40) := by ring
  rw [e1]
  have : (10 / 3) ^ 2 * ((5 / 2 * (25 / 9) * (3 / 4) * (3 / 20) + (25 / 9) ^ 2 / 10) / (9 / 25)) * (3 / 10 + 11 / 18 * x) + (10 / 3) ^ 4 / 40 ≤ 21 := by
    norm_num
    linarith
  have := mul_le_mul_of_nonneg_left this (by positivity : 0 ≤ x ^ 4)
  linarith

theorem den1_eq (f p q : ℝ) : den1 f p q = p - f * q / (2 * p) := by
  unfold den1
  rcases eq_or_ne p 0 with rfl | hp
  · simp
  · field_simp
    ring

theorem den2_eq (f p q r : ℝ) : den2 f p q r = p - f * q / (2 * den1 f p q) + (f / den1 f p q) ^ 2 * r / 6 := by
  unfold den2
  rcases eq_or_ne (den1 f p q) 0 with h | h
  · rw [h]; simp
  · field_simp
    ring

/-- The first correction, from bounds on the residual and on the product that decides about the denominators. -/
theorem danby_first {M e E P F G L1 L2 : ℝ} (he : 0 ≤ e) (he1 : e ≤ 3 / 5) (hP : 0 < P) (hp : P ≤ 1 - e * cos E) (hF : |keplerFi M e E| ≤ F) (hG : keplerFi M e E * (e * sin E) ≤ G) (hG0 : 0 ≤ G)
    (hL1 : 0 < L1) (h1 : L1 ≤ P - G / (2 * P)) (hL2 : 0 < L2) (h2 : L2 ≤ P - G / (2 * L1)) (hr : 0 ≤ e * cos E ∨ (P = 1 ∧ F ≤ L1))
    (hend : (F / L2) ^ 2 * ((F / P * (F / L1) * (3 / 4) * (3 / 20) + (F / L1) ^ 2 / 10) / L1) * (3 / 10 + (F / L2 + F / L1) / 10) + (F / L2) ^ 4 / 40 ≤ 3 / 50) :
    ∃ E', danby M e E = some E' ∧ |keplerFi M e E'| ≤ 3 / 50 := by
  obtain ⟨_, hT, _, _⟩ := sin_le_slope e E he he1
  have hp0 : 0 < 1 - e * cos E := hP.trans_le hp
  have F0 : 0 ≤ F := (abs_nonneg _).trans hF
  have gP : keplerFi M e E * (e * sin E) / (2 * (1 - e * cos E)) ≤ G / (2 * P) := by
    rw [div_le_div_iff₀ (by linarith) (by linarith)]
    nlinarith
  have hD1 : L1 ≤ den1 (keplerFi M e E) (1 - e * cos E) (e * sin E) := by
    rw [den1_eq]
    linarith
  have hD10 : 0 < den1 (keplerFi M e E) (1 - e * cos E) (e * sin E) := hL1.trans_le hD1
  have hD2 : L2 ≤ den2 (keplerFi M e E) (1 - e * cos E) (e * sin E) (e * cos E) := by
    rw [den2_eq]
    have gL : keplerFi M e E * (e * sin E) / (2 * den1 (keplerFi M e E) (1 - e * cos E) (e * sin E)) ≤ G / (2 * L1) := by
      rw [div_le_div_iff₀ (by linarith) (by linarith)]
      nlinarith
    rcases hr with hr | ⟨rfl, hr⟩
    · have : 0 ≤ (keplerFi M e E / den1 (keplerFi M e E) (1 - e * cos E) (e * sin E)) ^ 2 * (e * cos E) / 6 := by positivity
      linarith
    · have hx : (keplerFi M e E / den1 (keplerFi M e E) (1 - e * cos E) (e * sin E)) ^ 2 ≤ 1 := by
        rw [← sq_abs, abs_div, abs_of_pos hD10]
        have : |keplerFi M e E| / den1 (keplerFi M e E) (1 - e * cos E) (e * sin E) ≤ 1 := by
          rw [div_le_one hD10]; linarith
        have h0 : 0 ≤ |keplerFi M e E| / den1 (keplerFi M e E) (1 - e * cos E) (e * sin E) := by positivity
        nlinarith
      set x := (keplerFi M e E / den1 (keplerFi M e E) (1 - e * cos E) (e * sin E)) ^ 2
      have h3 : (1 - x) * (e * cos E) ≥ -(1 * -(e * cos E)) * (1 - x) := by nlinarith
      have hx0 : 0 ≤ x := sq_nonneg _
      nlinarith
  have hD20 : 0 < den2 (keplerFi M e E) (1 - e * cos E) (e * sin E) (e * cos E) := hL2.trans_le hD2
  have up : ∀ {A B : ℝ}, 0 < A → A ≤ B → |keplerFi M e E| ≤ F / A * B := by
    intro A B hA hAB
    refine hF.trans ?_
    rw [div_mul_eq_mul_div, le_div_iff₀ hA]
    gcongr
  obtain ⟨E', k1, k2⟩ := danby_core (a := F / P) (b := F / L1) (c := F / L2) he he1 hp0 hL1 hD1 hD20 hT (up hP hp) (up hL1 hD1) (up hL2 hD2)
  exact ⟨E', k1, k2.trans hend⟩

/-- The first correction of the C solver, which starts from the mean anomaly. -/
theorem danby_mean (M e : ℝ) (he : 0 ≤ e) (he1 : e ≤ 3 / 5) : ∃ E', danby M e M = some E' ∧ |keplerFi M e E'| ≤ 3 / 50 := by
  obtain ⟨hp, hT, hq, hr⟩ := sin_le_slope e M he he1
  have hp0 : 0 < 1 - e * cos M := by linarith
  have hf : keplerFi M e M = -(e * sin M) := by unfold keplerFi; ring
  have hfa : |keplerFi M e M| = |e * sin M| := by rw [hf, abs_neg]
  set p := 1 - e * cos M with hpd
  set q := e * sin M with hqd
  have hD1 : den1 (keplerFi M e M) p q = p + |q| ^ 2 / (2 * p) := by rw [den1_eq, hf, sq_abs]; ring
  have hDp : p ≤ den1 (keplerFi M e M) p q := by
    rw [hD1]
    have : 0 ≤ |q| ^ 2 / (2 * p) := by positivity
    linarith
  have hD10 : 0 < den1 (keplerFi M e M) p q := hp0.trans_le hDp
  have q0 := abs_nonneg q
  have hb : |keplerFi M e M| ≤ 59 / 100 * den1 (keplerFi M e M) p q := by
    rw [hfa, hD1]
    have : p + |q| ^ 2 / (2 * p) = (2 * p ^ 2 + |q| ^ 2) / (2 * p) := by field_simp
    rw [this, ← mul_div_assoc, le_div_iff₀ (by linarith)]
    nlinarith [mul_nonneg (by linarith : 0 ≤ 3 / 4 * p - |q|) (by linarith : 0 ≤ p), mul_nonneg (by linarith : 0 ≤ 3 / 4 * p - |q|) q0, mul_nonneg q0 hp0.le, sq_nonneg p]
  have hx : (keplerFi M e M / den1 (keplerFi M e M) p q) ^ 2 ≤ 1 := by
    rw [← sq_abs, abs_div, abs_of_pos hD10]
    have : |keplerFi M e M| / den1 (keplerFi M e M) p q ≤ 1 := by
      rw [div_le_one hD10]; linarith
    have h0 : 0 ≤ |keplerFi M e M| / den1 (keplerFi M e M) p q := by positivity
    nlinarith
  have hD2 : (if 0 ≤ e * cos M then p else 1) ≤ den2 (keplerFi M e M) p q (e * cos M) := by
    rw [den2_eq]
    have h1 : 0 ≤ -(keplerFi M e M * q / (2 * den1 (keplerFi M e M) p q)) := by
      rw [← neg_div]
      refine div_nonneg ?_ (by linarith)
      rw [hf]
      have : -(-q * q) = q ^ 2 := by ring
      rw [this]
      exact sq_nonneg _
    set x := (keplerFi M e M / den1 (keplerFi M e M) p q) ^ 2
    have hx0 : 0 ≤ x := sq_nonneg _
    split_ifs with hc
    · have := mul_nonneg hx0 hc
      linarith
    · push Not at hc
      nlinarith
  have hD20 : 0 < den2 (keplerFi M e M) p q (e * cos M) := by
    refine lt_of_lt_of_le ?_ hD2
    split_ifs <;> linarith
  have hc : |keplerFi M e M| ≤ 3 / 4 * den2 (keplerFi M e M) p q (e * cos M) := by
    rw [hfa]
    split_ifs at hD2 <;> linarith
  obtain ⟨E', k1, k2⟩ := danby_core (a := 3 / 4) (b := 59 / 100) (c := 3 / 4) (T := 3 / 4) (L := 2 / 5) he he1 hp0 (by norm_num) (hp.trans hDp) hD20 hT (by rw [hfa]; exact hT) hb hc
  exact ⟨E', k1, k2.trans (by norm_num)⟩

theorem quadrant {S C s c : ℝ} (hS : 0 ≤ S) (hC : 0 ≤ C) (h1 : S ^ 2 + C ^ 2 = 1) (hs : 0 ≤ s) (hc : 0 ≤ c) (h2 : s ^ 2 + c ^ 2 = 1) (h : c * S < s * C) : S ≤ s ∧ c ≤ C := by
  have h3 : (c * S) ^ 2 ≤ (s * C) ^ 2 := pow_le_pow_left₀ (mul_nonneg hc hS) h.le 2
  have h4 : S ^ 2 ≤ s ^ 2 := by
    have e1 : c ^ 2 = 1 - s ^ 2 := by linarith
    have e2 : C ^ 2 = 1 - S ^ 2 := by linarith
    rw [mul_pow, mul_pow, e1, e2] at h3
    linarith
  exact ⟨(pow_le_pow_iff_left₀ hS hs two_ne_zero).mp h4, (pow_le_pow_iff_left₀ hc hC two_ne_zero).mp (by linarith)⟩

theorem quadrant_neg {S C s c : ℝ} (hS : 0 ≤ S) (hC : 0 < C) (h1 : S ^ 2 + C ^ 2 = 1) (hs : s < 0) (h2 : s ^ 2 + c ^ 2 = 1) (h : c * S < s * C) : c < 0 ∧ -s ≤ S := by
  have h0 : s * C < 0 := mul_neg_of_neg_of_pos hs hC
  have hc : c < 0 := by
    by_contra hc
    push Not at hc
    have := mul_nonneg hc hS
    linarith
  refine ⟨hc, ?_⟩
  have h3 : (-(s * C)) ^ 2 ≤ (-(c * S)) ^ 2 := pow_le_pow_left₀ (by linarith) (by linarith) 2
  have h4 : (-s) ^ 2 ≤ S ^ 2 := by
    have e1 : c ^ 2 = 1 - s ^ 2 := by linarith
    have e2 : C ^ 2 = 1 - S ^ 2 := by linarith
    rw [neg_sq, neg_sq, mul_pow, mul_pow, e1, e2] at h3
    rw [neg_sq]
    linarith
  exact (pow_le_pow_iff_left₀ (by linarith) hS two_ne_zero).mp h4

theorem guess_bounds {e a : ℝ} (he : 0 ≤ e) (he1 : e ≤ 3 / 5) (ha : a = 17 / 20 * e) : e * cos a ≤ 53 / 100 ∧ e * (17 / 20 - sin a) ≤ 225 / 1000 := by
  have ha0 : 0 ≤ a := by linarith
  have ha1 : a ≤ 51 / 100 := by linarith
  have hsl := sin_ge_sub_cube ha0
  have haa := sin_sq_add_cos_sq a
  have a2 : a ^ 2 ≤ 3 / 10 := by nlinarith
  have h4 : 95 / 100 * a ≤ sin a := by
    have : a ^ 3 = a * a ^ 2 := by ring
    have := mul_le_mul_of_nonneg_left a2 ha0
    linarith
  have h5 : (95 / 100 * a) ^ 2 ≤ sin a ^ 2 := pow_le_pow_left₀ (by linarith) h4 2
  have hcl : cos a ≤ 1 - 9 / 20 * a ^ 2 := by
    have := sq_nonneg (1 - cos a)
    nlinarith
  constructor
  · have h6 := mul_le_mul_of_nonneg_left hcl he
    rw [ha] at h6
    rw [ha]
    have : e * (1 - 9 / 20 * (17 / 20 * e) ^ 2) ≤ 53 / 100 := by
      nlinarith [mul_nonneg he (by linarith : 0 ≤ 3 / 5 - e), mul_nonneg (mul_nonneg he he) (by linarith : 0 ≤ 3 / 5 - e)]
    linarith
  · have h6 := mul_le_mul_of_nonneg_left (by linarith : 17 / 20 - sin a ≤ 17 / 20 - 95 / 100 * a) he
    rw [ha] at h6
    rw [ha]
    nlinarith [sq_nonneg (e - 1 / 2)]

/-- The first correction from the guess that is 0.85 `e` away from the mean anomaly. -/
theorem danby_start (M e σ : ℝ) (he : 0 ≤ e) (he1 : e ≤ 3 / 5) (hσ : σ = 1 ∨ σ = -1) (hs : 0 < σ * sin M) :
    |keplerFi M e (M + σ * 0.85 * e)| ≤ 9 / 100 ∨ ∃ E', danby M e (M + σ * 0.85 * e) = some E' ∧ |keplerFi M e E'| ≤ 3 / 50 := by
  obtain ⟨a, ha⟩ : ∃ a, a = 17 / 20 * e := ⟨_, rfl⟩
  have ha0 : 0 ≤ a := by linarith
  have ha1 : a ≤ 51 / 100 := by linarith
  obtain ⟨E, hE⟩ : ∃ E, E = M + σ * 0.85 * e := ⟨_, rfl⟩
  have hM : M = E - σ * a := by rw [hE, ha]; ring
  rw [← hE]
  obtain ⟨s, hsd⟩ : ∃ s, s = σ * sin E := ⟨_, rfl⟩
  have hσ2 : σ ^ 2 = 1 := by rcases hσ with rfl | rfl <;> norm_num
  have hsin : sin E = σ * s := by rw [hsd]; linear_combination -sin E * hσ2
  have hsc : s ^ 2 + cos E ^ 2 = 1 := by
    have := sin_sq_add_cos_sq E
    rw [hsin] at this
    linear_combination this - s ^ 2 * hσ2
  have hf : keplerFi M e E = σ * (e * (17 / 20 - s)) := by
    unfold keplerFi
    rw [hM, hsin, ha]
    ring
  have hfa : |keplerFi M e E| = |e * (17 / 20 - s)| := by
    rw [hf, abs_mul]
    rcases hσ with rfl | rfl <;> norm_num
  have hg : keplerFi M e E * (e * sin E) = e ^ 2 * (s * (17 / 20 - s)) := by
    rw [hf, hsin]
    linear_combination e ^ 2 * (s * (17 / 20 - s)) * hσ2
  have hside : cos E * sin a < s * cos a := by
    rw [hM] at hs
    have : σ * sin (E - σ * a) = s * cos a - cos E * sin a := by
      rw [sin_sub]
      rcases hσ with rfl | rfl
      · rw [one_mul, one_mul, hsd]; ring
      · rw [neg_one_mul, neg_one_mul, cos_neg, sin_neg, hsd]; ring
    linarith
  have hpi := pi_gt_three
  have hcosa : 0 < cos a := cos_pos_of_mem_Ioo ⟨by linarith, by linarith⟩
  have hsina : 0 ≤ sin a := sin_nonneg_of_nonneg_of_le_pi ha0 (by linarith)
  have haa := sin_sq_add_cos_sq a
  have he2 : e ^ 2 ≤ 9 / 25 := by nlinarith
  by_cases h1 : 17 / 20 ≤ s
  · left
    have : s ≤ 1 := by nlinarith [sq_nonneg (cos E)]
    rw [hfa, abs_le]
    constructor <;> nlinarith
  · right
    push Not at h1
    have hfp : |keplerFi M e E| = e * (17 / 20 - s) := by rw [hfa, abs_of_nonneg (mul_nonneg he (by linarith))]
    have hG : keplerFi M e E * (e * sin E) ≤ 651 / 10000 := by
      rw [hg]
      have : s * (17 / 20 - s) ≤ 289 / 1600 := by nlinarith [sq_nonneg (s - 17 / 40)]
      nlinarith [sq_nonneg e]
    by_cases h2 : 0 ≤ s
    · by_cases h3 : 0 ≤ cos E
      · -- the guess is in the first quadrant
        obtain ⟨hsa, hca⟩ := quadrant hsina hcosa.le haa h2 h3 hsc hside
        obtain ⟨n1, n2⟩ := guess_bounds he he1 ha
        refine danby_first (P := 47 / 100) (F := 225 / 1000) (G := 651 / 10000) (L1 := 2 / 5) (L2 := 388 / 1000) he he1 (by norm_num) ?_ ?_ hG (by norm_num) (by norm_num) (by norm_num) (by norm_num) (by norm_num)
          (.inl (mul_nonneg he h3)) (by norm_num)
        · have := mul_le_mul_of_nonneg_left hca he
          linarith
        · rw [hfp]
          have := mul_le_mul_of_nonneg_left (by linarith : 17 / 20 - s ≤ 17 / 20 - sin a) he
          linarith
      · push Not at h3
        refine danby_first (P := 1) (F := 51 / 100) (G := 651 / 10000) (L1 := 96 / 100) (L2 := 96 / 100) he he1 (by norm_num) ?_ ?_ hG (by norm_num) (by norm_num) (by norm_num) (by norm_num) (by norm_num)
          (.inr ⟨rfl, by norm_num⟩) (by norm_num)
        · have := mul_nonpos_of_nonneg_of_nonpos he h3.le
          linarith
        · rw [hfp]
          have := mul_le_mul_of_nonneg_left (by linarith : 17 / 20 - s ≤ 17 / 20) he
          linarith
    · push Not at h2
      obtain ⟨h3, h4⟩ := quadrant_neg hsina hcosa haa h2 hsc hside
      have hsa : -s ≤ a := h4.trans (sin_le ha0)
      refine danby_first (P := 1) (F := 82 / 100) (G := 0) (L1 := 1) (L2 := 1) he he1 (by norm_num) ?_ ?_ ?_ (by norm_num) (by norm_num) (by norm_num) (by norm_num) (by norm_num)
        (.inr ⟨rfl, by norm_num⟩) (by norm_num)
      · have := mul_nonpos_of_nonneg_of_nonpos he h3.le
        linarith
      · rw [hfp]
        have := mul_le_mul_of_nonneg_left (by linarith : 17 / 20 - s ≤ 17 / 20 + 51 / 100) he
        linarith
      · rw [hg]
        have := mul_nonneg (sq_nonneg e) (mul_pos_of_neg_of_neg h2 (by linarith : s - 17 / 20 < 0)).le
        linarith

end Radvel
