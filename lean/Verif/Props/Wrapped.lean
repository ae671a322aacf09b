import Verif.Model.Wrapped
import Verif.Model.Prior
import Verif.Model.Basis
import Verif.Lemmas.Orbit
import Verif.Props.Kepler
import Verif.Props.Keys

/-!
# C181: parameters that ultranest is told are circular

Ultranest takes 0 and 1 to be the same point of a wrapped parameter. That is right exactly if both ends of its prior describe the same orbit.
-/

namespace Radvel
open Real

/-- Two orbits with the same velocity at all times. -/
def SameVelocity (s s' : Synth) : Prop :=
  ∀ t E E', IsEccAnomaly s.e (2 * π * ((t - s.tp) / s.per)) E → IsEccAnomaly s'.e (2 * π * ((t - s'.tp) / s'.per)) E' → exactVel s.e s.w s.k E = exactVel s'.e s'.w s'.k E'

/-- The true anomaly determines the eccentric anomaly up to turns. -/
theorem nu_injective {e : ℝ} (he : 0 ≤ e) (he1 : e < 1) {E E' : ℝ} (hc : cosNu e E = cosNu e E') (hs : sinNu e E = sinNu e E') : cos E = cos E' ∧ sin E = sin E' := by
  have h1 : 0 < 1 - e * cos E := by nlinarith [cos_le_one E, neg_one_le_cos E]
  have h2 : 0 < 1 - e * cos E' := by nlinarith [cos_le_one E', neg_one_le_cos E']
  have hq : 0 < 1 - e ^ 2 := by nlinarith
  have hcos : cos E = cos E' := by
    unfold cosNu at hc
    rw [div_eq_div_iff h1.ne' h2.ne'] at hc
    have : (cos E - cos E') * (1 - e ^ 2) = 0 := by linear_combination hc
    rcases mul_eq_zero.1 this with h | h
    · linarith
    · exact absurd h hq.ne'
  refine ⟨hcos, ?_⟩
  unfold sinNu at hs
  rw [hcos, div_left_inj' h2.ne'] at hs
  exact mul_left_cancel₀ (sqrt_pos.2 hq).ne' hs

/-- A shift of the time of periastron changes no velocity exactly if it is a whole number of periods. -/
theorem sameVelocity_iff (s : Synth) (he : 0 ≤ s.e) (he1 : s.e < 1) (hper : s.per ≠ 0) (hk : s.k ≠ 0) (d : ℝ) :
    SameVelocity s { s with tp := s.tp + d } ↔ ∃ n : ℤ, d = n * s.per := by
  constructor
  · intro h
    obtain ⟨E, hc, hs⟩ := nu_surjective he he1 (-s.w)
    rw [cos_neg] at hc
    rw [sin_neg] at hs
    obtain ⟨E', hE'⟩ := ecc_exists s.e (E - s.e * sin E - 2 * π * (d / s.per)) he he1
    have hp : (2 * π) ≠ 0 := by positivity
    have hv := h (s.tp + s.per * ((E - s.e * sin E) / (2 * π))) E E' (by
      unfold IsEccAnomaly
      field_simp
      ring) (by
      unfold IsEccAnomaly at hE' ⊢
      rw [hE']
      field_simp
      ring)
    unfold exactVel at hv
    have hv := mul_left_cancel₀ hk hv
    simp only at hv
    rw [hc, hs] at hv
    have hn := cosNu_sq_add_sinNu_sq he he1 E'
    have hw := cos_sq_add_sin_sq s.w
    have hz : (cosNu s.e E' - cos s.w) ^ 2 + (sinNu s.e E' + sin s.w) ^ 2 = 0 := by nlinarith
    have h1 : cosNu s.e E' = cos s.w := by
      have : (cosNu s.e E' - cos s.w) ^ 2 = 0 := le_antisymm (by nlinarith [sq_nonneg (sinNu s.e E' + sin s.w)]) (sq_nonneg _)
      have := pow_eq_zero_iff (two_ne_zero) |>.1 this
      linarith
    have h2 : sinNu s.e E' = -sin s.w := by
      have : (sinNu s.e E' + sin s.w) ^ 2 = 0 := le_antisymm (by nlinarith [sq_nonneg (cosNu s.e E' - cos s.w)]) (sq_nonneg _)
      have := pow_eq_zero_iff (two_ne_zero) |>.1 this
      linarith
    obtain ⟨h3, h4⟩ := nu_injective he he1 (hc.trans h1.symm) (hs.trans h2.symm)
    obtain ⟨n, hn⟩ : ∃ n : ℤ, E - E' = n * (2 * π) := by
      have hone : cos (E - E') = 1 := by rw [cos_sub, h3, h4]; nlinarith [cos_sq_add_sin_sq E']
      obtain ⟨n, hn⟩ := (cos_eq_one_iff _).1 hone
      exact ⟨n, hn.symm⟩
    refine ⟨n, ?_⟩
    unfold IsEccAnomaly at hE'
    rw [h4] at hE'
    have : 2 * π * (d / s.per) = 2 * π * n := by linarith
    have := mul_left_cancel₀ hp this
    field_simp at this
    linarith
  · rintro ⟨n, rfl⟩ t E E' hE hE'
    simp only at hE'
    have hM : 2 * π * ((t - (s.tp + n * s.per)) / s.per) = 2 * π * ((t - s.tp) / s.per) + ((-n : ℤ) : ℝ) * (2 * π) := by
      push_cast
      field_simp
      ring
    rw [hM] at hE'
    have := (C19_unique s.e _ he he1).unique hE' (ecc_shift (-n) hE)
    rw [this]
    simp only [exactVel, cosNu_add_int, sinNu_add_int]

/-- C181, the names: among the free parameters, in their order, ultranest is told that exactly the times of conjunction and of periastron of planets are circular (and parameters of the user whose names start in the same way). -/
theorem C181_names (names : List Key) :
    (wrappedParams (names.map Key.render)).length = names.length ∧
      ∀ (i : Nat) k, names[i]? = some k → ∃ b, (wrappedParams (names.map Key.render))[i]? = some b ∧
        (b = true ↔ (∃ m, k = .orb .tc m ∨ k = .orb .tp m) ∨ ∃ s, k = .other s ∧ ∃ r, s.toList = 't' :: 'c' :: r ∨ s.toList = 't' :: 'p' :: r) := by
  refine ⟨by simp [wrappedParams], ?_⟩
  intro i k hk
  refine ⟨startsWith "tc" k.render || startsWith "tp" k.render, by simp [wrappedParams, hk], ?_⟩
  cases k with
  | orb p n => cases p <;> simp [startsWith, Key.render, PName.chars, List.isPrefixOf]
  | dvdt => simp [startsWith, Key.render, List.isPrefixOf]
  | curv => simp [startsWith, Key.render, List.isPrefixOf]
  | inst g r => cases g <;> simp [startsWith, Key.render, InstKind.chars, List.isPrefixOf]
  | other s =>
    have hl : ∀ l : List Char, (startsWith "tc" l || startsWith "tp" l) = true ↔ ∃ r, l = 't' :: 'c' :: r ∨ l = 't' :: 'p' :: r := by
      intro l
      rw [Bool.or_eq_true, startsWith, startsWith, List.isPrefixOf_iff_prefix, List.isPrefixOf_iff_prefix, exists_or]
      refine or_congr ?_ ?_ <;> exact exists_congr fun _ => eq_comm
    show (startsWith "tc" s.toList || startsWith "tp" s.toList) = true ↔ _
    rw [hl]
    simp

/-- C181, the ends: for a uniform prior on the time of periastron or of conjunction of a planet with a closed orbit and an amplitude, 0 and 1 are the same orbit exactly if the bounds are a whole number of periods apart. -/
theorem C181_ends_partial (ppf : ℝ → ℝ) (m : Nat) (s : Synth) (he : 0 ≤ s.e) (he1 : s.e < 1) (hper : s.per ≠ 0) (hk : s.k ≠ 0) (a b : ℝ) :
    (∃ t0 t1, (Prior.hardBounds (.orb .tp m) (.fin a) (.fin b)).transform ppf 0 = .ok t0 ∧ (Prior.hardBounds (.orb .tp m) (.fin a) (.fin b)).transform ppf 1 = .ok t1 ∧
      (SameVelocity { s with tp := t0 } { s with tp := t1 } ↔ ∃ n : ℤ, b - a = n * s.per)) ∧
    ∃ t0 t1, (Prior.hardBounds (.orb .tc m) (.fin a) (.fin b)).transform ppf 0 = .ok t0 ∧ (Prior.hardBounds (.orb .tc m) (.fin a) (.fin b)).transform ppf 1 = .ok t1 ∧
      (SameVelocity { s with tp := timetransToTimeperi t0 s.per s.e s.w } { s with tp := timetransToTimeperi t1 s.per s.e s.w } ↔ ∃ n : ℤ, b - a = n * s.per) := by
  refine ⟨⟨a, b, ?_, ?_, ?_⟩, a, b, ?_, ?_, ?_⟩
  · simp [Prior.transform]
  · simp [Prior.transform]
  · have := sameVelocity_iff { s with tp := a } he he1 hper hk (b - a)
    rwa [show ({ ({ s with tp := a } : Synth) with tp := ({ s with tp := a } : Synth).tp + (b - a) } : Synth) = { s with tp := b } by simp] at this
  · simp [Prior.transform]
  · simp [Prior.transform]
  · have := sameVelocity_iff { s with tp := timetransToTimeperi a s.per s.e s.w } he he1 hper hk (b - a)
    rwa [show ({ ({ s with tp := timetransToTimeperi a s.per s.e s.w } : Synth) with tp := ({ s with tp := timetransToTimeperi a s.per s.e s.w } : Synth).tp + (b - a) } : Synth) =
      { s with tp := timetransToTimeperi b s.per s.e s.w } by
        simp only [Synth.mk.injEq, true_and, and_true]
        unfold timetransToTimeperi
        rw [if_neg (by linarith), if_neg (by linarith)]
        ring] at this

/-- C181 is false: a time of conjunction is declared circular whatever its prior is. With bounds half a period apart both ends are different orbits. -/
theorem C181_width_violated (ppf : ℝ → ℝ) (m : Nat) (s : Synth) (he : 0 ≤ s.e) (he1 : s.e < 1) (hper : s.per ≠ 0) (hk : s.k ≠ 0) (a : ℝ) :
    wrappedParams [(Key.orb .tc m).render] = [true] ∧
      ∃ t0 t1, (Prior.hardBounds (.orb .tc m) (.fin a) (.fin (a + s.per / 2))).transform ppf 0 = .ok t0 ∧ (Prior.hardBounds (.orb .tc m) (.fin a) (.fin (a + s.per / 2))).transform ppf 1 = .ok t1 ∧
        ¬SameVelocity { s with tp := timetransToTimeperi t0 s.per s.e s.w } { s with tp := timetransToTimeperi t1 s.per s.e s.w } := by
  refine ⟨by simp [wrappedParams, startsWith, Key.render, PName.chars, List.isPrefixOf], ?_⟩
  obtain ⟨_, t0, t1, h0, h1, h⟩ := C181_ends_partial ppf m s he he1 hper hk a (a + s.per / 2)
  refine ⟨t0, t1, h0, h1, ?_⟩
  rw [h]
  rintro ⟨n, hn⟩
  have h2 : (1 : ℝ) = ((2 * n : ℤ) : ℝ) := by
    have : s.per * 1 = s.per * (2 * n) := by linarith
    push_cast
    exact mul_left_cancel₀ hper this
  have : (1 : ℤ) = 2 * n := by exact_mod_cast h2
  omega

/-- C181, the converse is false as well: an argument of periastron between 0 and a full turn is circular and not declared so. -/
theorem C181_angle_violated (ppf : ℝ → ℝ) (m : Nat) (s : Synth) (he : 0 ≤ s.e) (he1 : s.e < 1) :
    wrappedParams [(Key.orb .w m).render] = [false] ∧
      ∃ w0 w1, (Prior.hardBounds (.orb .w m) (.fin 0) (.fin (2 * π))).transform ppf 0 = .ok w0 ∧ (Prior.hardBounds (.orb .w m) (.fin 0) (.fin (2 * π))).transform ppf 1 = .ok w1 ∧ w0 ≠ w1 ∧
        SameVelocity { s with w := w0 } { s with w := w1 } := by
  refine ⟨by simp [wrappedParams, startsWith, Key.render, PName.chars, List.isPrefixOf], 0, 2 * π, by simp [Prior.transform], by simp [Prior.transform], by positivity, ?_⟩
  intro t E E' hE hE'
  have := (C19_unique s.e _ he he1).unique hE hE'
  subst this
  simp [exactVel]

/-- C181, the step sampler: the slice sampler is used exactly for more than seven free parameters, with two steps for each. -/
theorem C181_steps (names : List Key) : (sliceSteps (names.map Key.render) = none ↔ names.length ≤ 7) ∧ (7 < names.length → sliceSteps (names.map Key.render) = some (2 * names.length)) := by
  unfold sliceSteps
  rw [List.length_map]
  constructor
  · split <;> simp <;> omega
  · intro h
    rw [if_pos h, Nat.mul_comm]

example : wrappedParams ([Key.orb .per 1, .orb .tc 1, .orb .e 1, .orb .tp 2, .inst .jit "_j"].map Key.render) = [false, true, false, true, false] := by decide

example : SameVelocity ⟨3, 0, 1 / 2, 1, 5⟩ ⟨3, 6, 1 / 2, 1, 5⟩ ∧ ¬SameVelocity ⟨3, 0, 1 / 2, 1, 5⟩ ⟨3, 2, 1 / 2, 1, 5⟩ := by
  constructor
  · have := (sameVelocity_iff ⟨3, 0, 1 / 2, 1, 5⟩ (by norm_num) (by norm_num) (by norm_num) (by norm_num) 6).2 ⟨2, by norm_num⟩
    simpa using this
  · have := (sameVelocity_iff ⟨3, 0, 1 / 2, 1, 5⟩ (by norm_num) (by norm_num) (by norm_num) (by norm_num) 2).not.2 (by
      rintro ⟨n, hn⟩
      have hn : (2 : ℝ) = n * 3 := hn
      have : (2 : ℤ) = n * 3 := by exact_mod_cast hn
      omega)
    simpa using this

end Radvel
