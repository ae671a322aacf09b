import Verif.Lemmas.Orbit
import Mathlib.Analysis.Real.Pi.Irrational

/-!
# C15-C17, C21-C24: transit times, velocity formulas

The tangents used by the code have poles. No double is an odd multiple of π (doubles are rational), so the code never evaluates `tan`
at a pole; the theorems carry the corresponding hypothesis `cos (· / 2) ≠ 0`.
-/

namespace Radvel
open Real

/-- Every rational number (in particular every double) satisfies the pole hypothesis. -/
theorem rational_no_pole (q : ℚ) : cos ((q : ℝ) / 2) ≠ 0 := by
  intro h
  rw [Real.cos_eq_zero_iff] at h
  obtain ⟨n, hn⟩ := h
  have hodd : (2 * n + 1 : ℤ) ≠ 0 := by omega
  have hr : ((2 * n + 1 : ℤ) : ℝ) ≠ 0 := by exact_mod_cast hodd
  have : π = ((q / (2 * n + 1 : ℤ) : ℚ) : ℝ) := by
    push_cast at hr ⊢
    field_simp
    linarith
  exact irrational_pi ⟨_, this.symm⟩

/-! ## C15 -/

/-- C15: periastron time → transit time → periastron time. -/
theorem C15_tp_tc_tp (tp per e om : ℝ) (_he : -1 < e) :
    timetransToTimeperi (timeperiToTimetrans tp per e om false) per e om = tp := by
  unfold timetransToTimeperi timeperiToTimetrans
  split <;> simp

/-- C15: transit time → periastron time → transit time. -/
theorem C15_tc_tp_tc (tc per e om : ℝ) (_he : -1 < e) :
    timeperiToTimetrans (timetransToTimeperi tc per e om) per e om false = tc := by
  unfold timetransToTimeperi timeperiToTimetrans
  split <;> simp

/-- C15: the offset between the two times does not depend on the time (so the pair of functions is a translation and is injective). -/
theorem C15_translation (t t' per e om : ℝ) :
    timeperiToTimetrans t per e om false - t = timeperiToTimetrans t' per e om false - t' := by
  unfold timeperiToTimetrans
  split <;> simp

example : (-1 : ℝ) < 0.3 := by norm_num

/-- For a circular orbit with ω = π/2 the two times coincide; with ω = 0 they differ by a quarter period. -/
example : timeperiToTimetrans 5 4 0 (π / 2) false = 5 ∧ timeperiToTimetrans 5 4 0 0 false = 6 := by
  have := Real.pi_pos.ne'
  refine ⟨by norm_num [timeperiToTimetrans, eccAnomalyAt], ?_⟩
  have h : π / 2 / 2 = π / 4 := by ring
  have h1 : ¬ (1 : ℝ) ≤ 0 := by norm_num
  have h2 : (5 : ℝ) + 4 / (2 * π) * (2 * (π / 4)) = 6 := by field_simp; norm_num
  simpa [timeperiToTimetrans, eccAnomalyAt, h, h1] using h2

/-! ## C16 -/

theorem conjunction_core {tp per e f : ℝ} (m : ℤ) (hper : per ≠ 0) (he : 0 ≤ e) (he1 : e < 1) (hf : cos (f / 2) ≠ 0) (E : ℝ)
    (hE : IsEccAnomaly e (meanAnomaly (tp + per / (2 * π) *
      ((eccAnomalyAt f e + m * (2 * π)) - e * sin (eccAnomalyAt f e + m * (2 * π)))) tp per) E) :
    cosNu e E = cos f ∧ sinNu e E = sin f := by
  obtain ⟨n, hn⟩ := meanAnomaly_wrap ((eccAnomalyAt f e + m * (2 * π)) - e * sin (eccAnomalyAt f e + m * (2 * π))) tp per hper
  rw [hn] at hE
  have h2 : IsEccAnomaly e ((eccAnomalyAt f e + m * (2 * π)) - e * sin (eccAnomalyAt f e + m * (2 * π)) + n * (2 * π))
      ((eccAnomalyAt f e + m * (2 * π)) + n * (2 * π)) := ecc_shift n rfl
  have h3 := (C19_unique e _ he he1).unique hE h2
  rw [h3, cosNu_add_int, sinNu_add_int, cosNu_add_int, sinNu_add_int]
  exact nu_eccAnomalyAt (by linarith) he1 hf

theorem angle_of_cos_sin {ν f : ℝ} (h1 : cos ν = cos f) (h2 : sin ν = sin f) : ∃ n : ℤ, ν = f + n * (2 * π) := by
  have h : cos (ν - f) = 1 := by rw [Real.cos_sub, h1, h2, ← sq, ← sq]; exact Real.cos_sq_add_sin_sq f
  obtain ⟨n, hn⟩ := (Real.cos_eq_one_iff _).1 h
  exact ⟨n, by linarith⟩

/-- C16: at the time returned by `timeperi_to_timetrans` the orbit has exactly one eccentric anomaly, and the true anomaly there plus ω is
π/2 modulo 2π. -/
theorem C16_inferior_conjunction (tp per e om : ℝ) (hper : per ≠ 0) (he : 0 ≤ e) (he1 : e < 1)
    (hom : cos ((π / 2 - om) / 2) ≠ 0) :
    (∃! E, IsEccAnomaly e (meanAnomaly (timeperiToTimetrans tp per e om false) tp per) E) ∧
    ∀ E ν, IsEccAnomaly e (meanAnomaly (timeperiToTimetrans tp per e om false) tp per) E → IsTrueAnomaly e E ν →
      ∃ n : ℤ, ν + om = π / 2 + n * (2 * π) := by
  refine ⟨C19_unique e _ he he1, ?_⟩
  intro E ν hE hν
  have hE' : timeperiToTimetrans tp per e om false = tp + per / (2 * π) *
      ((eccAnomalyAt (π / 2 - om) e + (0 : ℤ) * (2 * π)) - e * sin (eccAnomalyAt (π / 2 - om) e + (0 : ℤ) * (2 * π))) := by
    simp [timeperiToTimetrans, not_le.2 he1]
  rw [hE'] at hE
  obtain ⟨h1, h2⟩ := conjunction_core 0 hper he he1 hom E hE
  obtain ⟨n, hn⟩ := angle_of_cos_sin (hν.1.trans h1) (hν.2.trans h2)
  exact ⟨n, by linarith⟩

/-- C16: the exact model velocity at that time is `k e cos ω`. -/
theorem C16_velocity (tp per e om k : ℝ) (hper : per ≠ 0) (he : 0 ≤ e) (he1 : e < 1)
    (hom : cos ((π / 2 - om) / 2) ≠ 0) (E : ℝ)
    (hE : IsEccAnomaly e (meanAnomaly (timeperiToTimetrans tp per e om false) tp per) E) :
    exactVel e om k E = k * e * cos om := by
  have hE' : timeperiToTimetrans tp per e om false = tp + per / (2 * π) *
      ((eccAnomalyAt (π / 2 - om) e + (0 : ℤ) * (2 * π)) - e * sin (eccAnomalyAt (π / 2 - om) e + (0 : ℤ) * (2 * π))) := by
    simp [timeperiToTimetrans, not_le.2 he1]
  rw [hE'] at hE
  obtain ⟨h1, h2⟩ := conjunction_core 0 hper he he1 hom E hE
  unfold exactVel
  rw [h1, h2, Real.cos_pi_div_two_sub, Real.sin_pi_div_two_sub]
  ring

theorem cos_quarter_ne : cos ((π / 2 - 0) / 2) ≠ 0 := by
  rw [show (π / 2 - 0) / 2 = π / 4 by ring, Real.cos_pi_div_four]; positivity

example : (7 : ℝ) ≠ 0 ∧ (0 : ℝ) ≤ 0.4 ∧ (0.4 : ℝ) < 1 ∧ cos ((π / 2 - 0) / 2) ≠ 0 ∧
    ∃ E, IsEccAnomaly 0.4 (meanAnomaly (timeperiToTimetrans 3 7 0.4 0 false) 3 7) E :=
  ⟨by norm_num, by norm_num, by norm_num, cos_quarter_ne, ecc_exists _ _ (by norm_num) (by norm_num)⟩

/-! ## C17 -/

theorem secondary_form (tp per e om : ℝ) (he1 : e < 1) :
    timeperiToTimetrans tp per e om true = tp + per / (2 * π) *
      ((eccAnomalyAt (3 * π / 2 - om) e + (1 : ℤ) * (2 * π)) - e * sin (eccAnomalyAt (3 * π / 2 - om) e + (1 : ℤ) * (2 * π))) := by
  simp [timeperiToTimetrans, not_le.2 he1]

theorem kepler_sign {e x : ℝ} (he : 0 ≤ e) (he1 : e < 1) (h1 : -π < x) (h2 : x < π) :
    -π < x - e * sin x ∧ x - e * sin x < π ∧ (x - e * sin x ≤ 0 ↔ x ≤ 0) := by
  rcases lt_trichotomy x 0 with h | h | h
  · have hs : sin x < 0 := Real.sin_neg_of_neg_of_neg_pi_lt h h1
    have hl : x < sin x := Real.lt_sin h
    refine ⟨by nlinarith, by nlinarith [Real.pi_pos], ?_⟩
    constructor
    · intro _; exact h.le
    · intro _; nlinarith
  · subst h; simp [Real.pi_pos]
  · have hs : 0 < sin x := Real.sin_pos_of_pos_of_lt_pi h h2
    have hl : sin x < x := Real.sin_lt h
    refine ⟨by nlinarith [Real.pi_pos], by nlinarith, ?_⟩
    constructor
    · intro h'; nlinarith
    · intro h'; linarith

/-- C17, provable part: the returned time is a superior conjunction (true anomaly plus ω is 3π/2 modulo 2π) and lies strictly between half a
period and one and a half periods after periastron; it is the *first* one after periastron (at most one period later) exactly when
`tan((3π/2-ω)/2) ≤ 0`. Missing from the full statement: `tp ≤ result ≤ tp + per` for all ω, see `C17_window_violated`. -/
theorem C17_superior_conjunction_partial (tp per e om : ℝ) (hper : 0 < per) (he : 0 ≤ e) (he1 : e < 1)
    (hom : cos ((3 * π / 2 - om) / 2) ≠ 0) :
    (∀ E ν, IsEccAnomaly e (meanAnomaly (timeperiToTimetrans tp per e om true) tp per) E → IsTrueAnomaly e E ν →
      ∃ n : ℤ, ν + om = 3 * π / 2 + n * (2 * π)) ∧
    tp + per / 2 < timeperiToTimetrans tp per e om true ∧ timeperiToTimetrans tp per e om true < tp + 3 * per / 2 ∧
    (timeperiToTimetrans tp per e om true ≤ tp + per ↔ tan ((3 * π / 2 - om) / 2) ≤ 0) := by
  have hπ := Real.pi_pos
  constructor
  · intro E ν hE hν
    rw [secondary_form _ _ _ _ he1] at hE
    obtain ⟨h1, h2⟩ := conjunction_core 1 hper.ne' he he1 hom E hE
    obtain ⟨n, hn⟩ := angle_of_cos_sin (hν.1.trans h1) (hν.2.trans h2)
    exact ⟨n, by linarith⟩
  · rw [secondary_form _ _ _ _ he1, Real.sin_add_int_mul_two_pi]
    have q : 0 < 1 - e := by linarith
    have p : 0 < 1 + e := by linarith
    have hs : 0 < √((1 - e) / (1 + e)) := by positivity
    have hx1 : -π < eccAnomalyAt (3 * π / 2 - om) e := by
      unfold eccAnomalyAt; linarith [Real.neg_pi_div_two_lt_arctan (tan ((3 * π / 2 - om) / 2) * √((1 - e) / (1 + e)))]
    have hx2 : eccAnomalyAt (3 * π / 2 - om) e < π := by
      unfold eccAnomalyAt; linarith [Real.arctan_lt_pi_div_two (tan ((3 * π / 2 - om) / 2) * √((1 - e) / (1 + e)))]
    have hx0 : eccAnomalyAt (3 * π / 2 - om) e ≤ 0 ↔ tan ((3 * π / 2 - om) / 2) ≤ 0 := by
      unfold eccAnomalyAt
      rw [← not_lt, ← not_lt, not_iff_not]
      constructor
      · intro h
        have : 0 < arctan (tan ((3 * π / 2 - om) / 2) * √((1 - e) / (1 + e))) := by linarith
        rw [Real.arctan_pos] at this
        exact (pos_iff_pos_of_mul_pos this).2 hs
      · intro h
        have : 0 < arctan (tan ((3 * π / 2 - om) / 2) * √((1 - e) / (1 + e))) := Real.arctan_pos.2 (mul_pos h hs)
        linarith
    obtain ⟨g1, g2, g3⟩ := kepler_sign he he1 hx1 hx2
    rw [← hx0, ← g3]
    generalize eccAnomalyAt (3 * π / 2 - om) e = x at *
    have hT : tp + per / (2 * π) * ((x + (1 : ℤ) * (2 * π)) - e * sin x) = tp + per + per * (x - e * sin x) / (2 * π) := by
      push_cast; field_simp; ring
    rw [hT]
    have a1 : -(per / 2) < per * (x - e * sin x) / (2 * π) := by
      rw [lt_div_iff₀ (by positivity)]; nlinarith
    have a2 : per * (x - e * sin x) / (2 * π) < per / 2 := by
      rw [div_lt_iff₀ (by positivity)]; nlinarith
    have a3 : per * (x - e * sin x) / (2 * π) ≤ 0 ↔ x - e * sin x ≤ 0 := by
      rw [div_le_iff₀ (by positivity), zero_mul]
      constructor
      · intro h; by_contra hc; push Not at hc; nlinarith [mul_pos hper hc]
      · intro h; exact mul_nonpos_of_nonneg_of_nonpos hper.le h
    refine ⟨by linarith, by linarith, ?_⟩
    rw [← a3]
    constructor <;> intro h <;> linarith

example : (0 : ℝ) < 7 ∧ (0 : ℝ) ≤ 0.4 ∧ (0.4 : ℝ) < 1 ∧ cos ((3 * π / 2 - π) / 2) ≠ 0 := by
  refine ⟨by norm_num, by norm_num, by norm_num, ?_⟩
  rw [show (3 * π / 2 - π) / 2 = π / 4 by ring, Real.cos_pi_div_four]; positivity

/-- C17 is false as stated: for a circular orbit with period 1, periastron at 0 and ω = π the returned time is 1.25, one full period after
the secondary eclipse that follows periastron. -/
theorem C17_window_violated : timeperiToTimetrans 0 1 0 π true = 1.25 ∧
    ¬ (timeperiToTimetrans 0 1 0 π true ≤ 0 + 1) := by
  have h : timeperiToTimetrans 0 1 0 π true = 1.25 := by
    have := Real.pi_pos.ne'
    have h : (3 * π / 2 - π) / 2 = π / 4 := by ring
    norm_num [timeperiToTimetrans, eccAnomalyAt, h]
    field_simp
    norm_num
  exact ⟨h, by rw [h]; norm_num⟩

/-! ## C21 -/

/-- C21: the C expression and the NumPy expression are the same function. -/
theorem C21_same_formula (e om k E : ℝ) : rvC e om k E = rvNumpy e om k E := rvC_eq_numpy e om k E

/-- C21: for `-1 < e < 1` both equal `k (cos(ν+ω) + e cos ω)` for *the* true anomaly ν of `E`, not only for the branch the code computes. -/
theorem C21_physical (e om k E ν : ℝ) (he : -1 < e) (he1 : e < 1) (hE : cos (E / 2) ≠ 0) (hν : IsTrueAnomaly e E ν) :
    rvC e om k E = k * (cos (ν + om) + e * cos om) ∧ rvNumpy e om k E = k * (cos (ν + om) + e * cos om) := by
  rw [rvC_eq_numpy, rvNumpy_eq_exact he he1 om k E hE]
  simp [exactVel, Real.cos_add, hν.1, hν.2]

theorem cos_half_pi_third_ne : cos (π / 2 / 2) ≠ 0 := by
  rw [show π / 2 / 2 = π / 4 by ring, Real.cos_pi_div_four]; positivity

example : (-1 : ℝ) < 0.5 ∧ (0.5 : ℝ) < 1 ∧ cos (π / 2 / 2) ≠ 0 ∧ ∃ ν, IsTrueAnomaly 0.5 (π / 2) ν :=
  ⟨by norm_num, by norm_num, cos_half_pi_third_ne, _,
    trueAnomalyOf_spec (by norm_num) (by norm_num) cos_half_pi_third_ne⟩

/-! ## C22 -/

/-- C22: for `e = 0` the branch returns the exact velocity of a circular orbit, for every time (no pole), with either solver. -/
theorem C22_circular_exact (solve : ℝ → ℝ → Option ℝ) (formula : ℝ → ℝ → ℝ → ℝ → ℝ) (t per tp om k E : ℝ)
    (hE : IsEccAnomaly 0 (meanAnomaly t tp per) E) :
    rvDrive solve formula t per tp 0 om k = some (exactVel 0 om k E) := by
  have hE' : E = meanAnomaly t tp per := by simpa [IsEccAnomaly] using hE
  simp [rvDrive, rvCircular, exactVel, cosNu, sinNu, hE', Real.cos_add]

/-- C22: the general formula at `e = 0` gives the value of the shortcut. -/
theorem C22_general_at_zero (t per tp om k : ℝ) (h : cos (meanAnomaly t tp per / 2) ≠ 0) :
    rvNumpy 0 om k (meanAnomaly t tp per) = rvCircular t per tp om k ∧
    rvC 0 om k (meanAnomaly t tp per) = rvCircular t per tp om k := by
  rw [rvC_eq_numpy, rvNumpy_eq_exact (by norm_num) (by norm_num) om k _ h]
  simp [rvCircular, exactVel, cosNu, sinNu, Real.cos_add]

theorem npSolve_zero (fuel : Nat) (M : ℝ) : npSolve fuel M 0 = some M := by
  have h2 : KElem.active { M := M, e := 0, E := some M } = false := by
    simp [KElem.active, unconverged, keplerFi, conv]; norm_num
  have : npKepler fuel [(M, 0)] = some [some M] := by
    unfold npKepler npLoop
    simp [npInit, npGuess, h2]
  simp [npSolve, this]

theorem cSolve_zero (M : ℝ) : cSolve M 0 = some M := by
  have h2 : unconverged M 0 (some M) = false := by
    simp [unconverged, keplerFi, conv]; norm_num
  have : cKepler M 0 = .value (some M) := by
    unfold cKepler cLoop
    simp [cGuess, h2]
  simp [cSolve, this]

/-- C22: a negative eccentricity is treated as a circular orbit, with both implementations. -/
theorem C22_negative_e (fuel : Nat) (t per tp e om k : ℝ) (hper : 0 < per) (he : e < 0) (h : cos (meanAnomaly t tp per / 2) ≠ 0) :
    rvDrive (npSolve fuel) rvNumpy t per tp e om k = rvDrive (npSolve fuel) rvNumpy t per tp 0 om k ∧
    rvDrive cSolve rvC t per tp e om k = rvDrive cSolve rvC t per tp 0 om k := by
  have h1 : ¬ (0.99 : ℝ) < 0 := by norm_num
  have hg := C22_general_at_zero t per tp om k h
  constructor
  · simp [rvDrive, he, he.ne, hper.not_gt, h1, npSolve_zero, hg.1]
  · simp [rvDrive, he, he.ne, hper.not_gt, h1, cSolve_zero, hg.2]

example : (0 : ℝ) < 4 ∧ (-0.1 : ℝ) < 0 ∧ cos (meanAnomaly 1 0 4 / 2) ≠ 0 := by
  refine ⟨by norm_num, by norm_num, ?_⟩
  have h : ⌊((1 : ℝ) - 0) / 4⌋ = 0 := by rw [Int.floor_eq_zero_iff]; constructor <;> norm_num
  rw [meanAnomaly, h, show (2 * π * ((1 - 0) / 4 - ((0 : ℤ) : ℝ))) / 2 = π / 4 by push_cast; ring, Real.cos_pi_div_four]
  positivity

/-! ## C23 -/

/-- C23: the computed velocity repeats after any whole number of periods (whatever solver and formula). -/
theorem C23_periodic (solve : ℝ → ℝ → Option ℝ) (formula : ℝ → ℝ → ℝ → ℝ → ℝ) (t per tp e om k : ℝ) (n : ℤ) (hper : 0 < per) :
    rvDrive solve formula (t + n * per) per tp e om k = rvDrive solve formula t per tp e om k := by
  have hm : meanAnomaly (t + n * per) tp per = meanAnomaly t tp per := by
    unfold meanAnomaly
    have : (t + n * per - tp) / per = (t - tp) / per + n := by field_simp; ring
    rw [this, Int.floor_add_intCast]
    push_cast; ring
  simp [rvDrive, rvCircular, hper.not_gt, hm]

/-- C23: the computed velocity is bounded by `|k| (1 + e)`, `e` after the code's clamping, for both implementations and every solver output. -/
theorem C23_bounded (solve : ℝ → ℝ → Option ℝ) (t per tp e om k v : ℝ)
    (h : rvDrive solve rvNumpy t per tp e om k = some v ∨ rvDrive solve rvC t per tp e om k = some v) :
    |v| ≤ |k| * (1 + max 0 (min e 0.99)) := by
  have hcos : ∀ x, |cos x| ≤ 1 := Real.abs_cos_le_one
  have key : ∀ e E : ℝ, 0 ≤ e → |rvNumpy e om k E| ≤ |k| * (1 + e) := by
    intro e E he
    unfold rvNumpy
    rw [abs_mul]
    apply mul_le_mul_of_nonneg_left _ (abs_nonneg k)
    refine (abs_add_le _ _).trans (add_le_add (hcos _) ?_)
    rw [abs_mul, abs_of_nonneg he]
    nlinarith [hcos om]
  have h' : rvDrive solve rvNumpy t per tp e om k = some v := by
    rcases h with h | h
    · exact h
    · have : (rvC) = rvNumpy := by funext e om k E; exact rvC_eq_numpy e om k E
      rwa [this] at h
  unfold rvDrive at h'
  split at h'
  · next h0 =>
    cases h'
    subst h0
    unfold rvCircular
    rw [abs_mul]
    have : max (0 : ℝ) (min 0 0.99) = 0 := by norm_num
    rw [this]
    nlinarith [hcos (meanAnomaly t tp per + om), abs_nonneg k]
  · simp only [Option.map_eq_some_iff] at h'
    obtain ⟨E, _, rfl⟩ := h'
    have hc : (if (if e < 0 then (0 : ℝ) else e) > 0.99 then 0.99 else (if e < 0 then (0 : ℝ) else e)) = max 0 (min e 0.99) := by
      by_cases h1 : e < 0
      · have : min e 0.99 = e := min_eq_left (by linarith)
        rw [if_pos h1, this, max_eq_left h1.le, if_neg (by norm_num)]
      · push Not at h1
        rw [if_neg h1.not_gt]
        by_cases h2 : e > 0.99
        · rw [if_pos h2, min_eq_right h2.le, max_eq_right (by norm_num)]
        · rw [if_neg h2, min_eq_left (not_lt.1 h2), max_eq_right h1]
    rw [hc]
    exact key _ E (le_max_left _ _)

/-- C23: the computed velocity is proportional to `k`. -/
theorem C23_linear (solve : ℝ → ℝ → Option ℝ) (t per tp e om k c : ℝ) :
    rvDrive solve rvNumpy t per tp e om (c * k) = (rvDrive solve rvNumpy t per tp e om k).map (c * ·) ∧
    rvDrive solve rvC t per tp e om (c * k) = (rvDrive solve rvC t per tp e om k).map (c * ·) := by
  have hC : (rvC) = rvNumpy := by funext e om k E; exact rvC_eq_numpy e om k E
  rw [hC, and_self]
  unfold rvDrive
  split
  · simp [rvCircular, mul_assoc]
  · simp only [Option.map_map]
    congr 1
    funext E
    simp [rvNumpy, mul_assoc]

/-- C23: over an exact orbit the velocity stays between `k(e cos ω - 1)` and `k(e cos ω + 1)`, and both values are attained at some time. -/
theorem C23_extremes (per tp e om k : ℝ) (hper : per ≠ 0) (he : 0 ≤ e) (he1 : e < 1) (hk : 0 ≤ k) :
    (∀ t E, IsEccAnomaly e (meanAnomaly t tp per) E →
      k * (e * cos om - 1) ≤ exactVel e om k E ∧ exactVel e om k E ≤ k * (e * cos om + 1)) ∧
    (∃ t E, IsEccAnomaly e (meanAnomaly t tp per) E ∧ exactVel e om k E = k * (e * cos om + 1)) ∧
    (∃ t E, IsEccAnomaly e (meanAnomaly t tp per) E ∧ exactVel e om k E = k * (e * cos om - 1)) := by
  have attain : ∀ θ : ℝ, ∃ t E, IsEccAnomaly e (meanAnomaly t tp per) E ∧ cosNu e E = cos θ ∧ sinNu e E = sin θ := by
    intro θ
    obtain ⟨E, h1, h2⟩ := nu_surjective he he1 θ
    obtain ⟨n, hn⟩ := meanAnomaly_wrap (E - e * sin E) tp per hper
    refine ⟨_, E + n * (2 * π), hn ▸ ecc_shift n rfl, ?_, ?_⟩
    · rw [cosNu_add_int, h1]
    · rw [sinNu_add_int, h2]
  refine ⟨?_, ?_, ?_⟩
  · intro t E _
    have h1 := abs_rot_le (cosNu e E) (sinNu e E) _ _ (Real.cos_sq_add_sin_sq om)
    rw [cosNu_sq_add_sinNu_sq he he1, Real.sqrt_one, abs_le] at h1
    unfold exactVel
    constructor <;> apply mul_le_mul_of_nonneg_left _ hk <;> linarith
  · obtain ⟨t, E, h, h1, h2⟩ := attain (-om)
    refine ⟨t, E, h, ?_⟩
    unfold exactVel
    rw [h1, h2, Real.cos_neg, Real.sin_neg]
    linear_combination k * Real.cos_sq_add_sin_sq om
  · obtain ⟨t, E, h, h1, h2⟩ := attain (π - om)
    refine ⟨t, E, h, ?_⟩
    unfold exactVel
    rw [h1, h2, Real.cos_pi_sub, Real.sin_pi_sub]
    linear_combination -k * Real.cos_sq_add_sin_sq om

example : (3 : ℝ) ≠ 0 ∧ (0 : ℝ) ≤ 0.9 ∧ (0.9 : ℝ) < 1 ∧ (0 : ℝ) ≤ 10 := by norm_num

/-! ## C24 -/

/-- C24: the velocity computed from an anomaly that meets the solver tolerance is within the stated bound of the exact velocity. -/
theorem C24_error_bound (e om k M E E' : ℝ) (he : 0 ≤ e) (he1 : e < 1) (hE : IsEccAnomaly e M E)
    (hE' : |E' - e * sin E' - M| ≤ 1e-12) (hpole : cos (E' / 2) ≠ 0) :
    |rvNumpy e om k E' - exactVel e om k E| ≤ |k| * √((1 + e) / (1 - e)) * (1e-12 / (1 - e)) ∧
    |rvC e om k E' - exactVel e om k E| ≤ |k| * √((1 + e) / (1 - e)) * (1e-12 / (1 - e)) := by
  rw [rvC_eq_numpy, and_self, rvNumpy_eq_exact (by linarith) he1 om k E' hpole]
  refine (exactVel_lipschitz he he1 om k E' E).trans ?_
  exact mul_le_mul_of_nonneg_left (C19_error e M E E' he he1 hE hE') (by positivity)

/-- C24 for `rv_drive` with the NumPy solver: whenever it returns a number, for `0 ≤ e ≤ 0.99`, that number is within the bound of the exact
velocity at that time. -/
theorem C24_rv_drive_numpy (fuel : Nat) (t per tp e om k v E : ℝ) (hper : 0 < per) (he : 0 ≤ e) (he1 : e ≤ 0.99)
    (hE : IsEccAnomaly e (meanAnomaly t tp per) E)
    (hpole : ∀ E', npSolve fuel (meanAnomaly t tp per) e = some E' → cos (E' / 2) ≠ 0)
    (h : rvDrive (npSolve fuel) rvNumpy t per tp e om k = some v) :
    |v - exactVel e om k E| ≤ |k| * √((1 + e) / (1 - e)) * (1e-12 / (1 - e)) := by
  have he2 : e < 1 := by norm_num at he1 ⊢; linarith
  by_cases h0 : e = 0
  · subst h0
    rw [C22_circular_exact _ _ _ _ _ _ _ E hE] at h
    cases h
    rw [sub_self, abs_zero]
    positivity
  · have : rvDrive (npSolve fuel) rvNumpy t per tp e om k =
        (npSolve fuel (meanAnomaly t tp per) e).map (fun E => rvNumpy e om k E) := by
      simp [rvDrive, h0, hper.not_gt, he.not_gt, he1.not_gt]
    rw [this, Option.map_eq_some_iff] at h
    obtain ⟨E', h1, rfl⟩ := h
    have hs : |E' - e * sin E' - meanAnomaly t tp per| ≤ 1e-12 := by
      unfold npSolve at h1
      split at h1
      · next E0 hk => cases h1; exact (C18_numpy_partial fuel _ _ hk).2 0 _ _ _ rfl rfl
      · cases h1
    exact (C24_error_bound e om k _ E E' he he2 hE hs (hpole E' h1)).1

/-- C24 for `rv_drive` with the C solver. -/
theorem C24_rv_drive_c (t per tp e om k v E : ℝ) (hper : 0 < per) (he : 0 ≤ e) (he1 : e ≤ 0.99)
    (hE : IsEccAnomaly e (meanAnomaly t tp per) E)
    (hpole : ∀ E', cSolve (meanAnomaly t tp per) e = some E' → cos (E' / 2) ≠ 0)
    (h : rvDrive cSolve rvC t per tp e om k = some v) :
    |v - exactVel e om k E| ≤ |k| * √((1 + e) / (1 - e)) * (1e-12 / (1 - e)) := by
  have he2 : e < 1 := by norm_num at he1 ⊢; linarith
  by_cases h0 : e = 0
  · subst h0
    rw [C22_circular_exact _ _ _ _ _ _ _ E hE] at h
    cases h
    rw [sub_self, abs_zero]
    positivity
  · have : rvDrive cSolve rvC t per tp e om k =
        (cSolve (meanAnomaly t tp per) e).map (fun E => rvC e om k E) := by
      simp [rvDrive, h0, hper.not_gt, he.not_gt, he1.not_gt]
    rw [this, Option.map_eq_some_iff] at h
    obtain ⟨E', h1, rfl⟩ := h
    have hs : |E' - e * sin E' - meanAnomaly t tp per| ≤ 1e-12 := by
      unfold cSolve at h1
      rcases C18_c_partial (meanAnomaly t tp per) e with hk | ⟨E0, hk, hk'⟩
      · rw [hk] at h1; cases h1
      · rw [hk] at h1; exact hk' E' h1
    exact (C24_error_bound e om k _ E E' he he2 hE hs (hpole E' h1)).2

/-- At periastron (`t = tp`) all hypotheses hold, with either solver, at `e = 0.5`. -/
example : npSolve 0 (meanAnomaly 2 2 5) 0.5 = some 0 ∧ cSolve (meanAnomaly 2 2 5) 0.5 = some 0 ∧ cos ((0 : ℝ) / 2) ≠ 0 ∧
    IsEccAnomaly 0.5 (meanAnomaly 2 2 5) 0 := by
  have hm : meanAnomaly 2 2 5 = 0 := by simp [meanAnomaly]
  rw [hm]
  have hu : unconverged 0 0.5 (some 0) = false := by
    simp [unconverged, keplerFi, conv]; norm_num
  refine ⟨?_, ?_, by simp, by simp [IsEccAnomaly]⟩
  · have : npKepler 0 [(0, 0.5)] = some [some 0] := by
      simp [npKepler, npLoop, npInit, npGuess, KElem.active, hu]
    simp [npSolve, this]
  · have : cKepler 0 0.5 = .value (some 0) := by
      unfold cKepler cLoop
      have h1 : ¬ (1 : ℝ) ≤ 0 := by norm_num
      simp [cGuess, cSign, h1, hu]
    simp [cSolve, this]

end Radvel
