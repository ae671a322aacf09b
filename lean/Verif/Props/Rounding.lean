import Verif.Lemmas.RoundedVel
import Verif.Props.Orbit

/-!
# C169: rounding in double precision

`Verif.Model.Rounded` runs `rv_drive` with operations that round (`Ops`); `IsDouble` (`Verif.Spec.Rounding`) is what is assumed of them.
-/

namespace Radvel
open Real

variable {A : Ops}

theorem Ops.npLoop_post (M e : ℝ) (fuel : Nat) (E : Option ℝ) (E' : ℝ) (h : A.npLoop M e fuel E = some (some E')) : |A.fi M e E'| ≤ A.lit 1e-12 := by
  induction fuel generalizing E with
  | zero =>
    unfold Ops.npLoop at h
    split at h
    · cases h
    · next hc => cases h; simpa [Ops.unconverged] using hc
  | succ n ih =>
    unfold Ops.npLoop at h
    split at h
    · exact ih _ h
    · next hc => cases h; simpa [Ops.unconverged] using hc

theorem Ops.npSolve_post (M e : ℝ) (fuel : Nat) (E' : ℝ) (h : A.npSolve fuel M e = some E') : |A.fi M e E'| ≤ A.lit 1e-12 := by
  unfold Ops.npSolve at h
  rw [Option.join_eq_some_iff] at h
  exact Ops.npLoop_post M e fuel _ E' h

theorem Ops.cLoop_post (M e : ℝ) (fuel count : Nat) (E : Option ℝ) (E' : ℝ) (hf : 30 < fuel + count) (hc : count < 30) (h : A.cLoop 30 M e fuel count E = .value (some E')) : |A.fi M e E'| ≤ A.lit 1e-12 := by
  induction fuel generalizing count E with
  | zero => omega
  | succ n ih =>
    unfold Ops.cLoop at h
    split at h
    · split at h
      · cases h
      · next hne => exact ih (count + 1) _ (by omega) (by omega) h
    · next hcond =>
      cases h
      simp only [hc, decide_true, Bool.and_true, Ops.unconverged, decide_eq_true_eq, not_lt, gt_iff_lt] at hcond
      exact hcond

theorem Ops.cSolve_post (M e E' : ℝ) (h : A.cSolve M e = some E') : |A.fi M e E'| ≤ A.lit 1e-12 := by
  unfold Ops.cSolve at h
  split at h
  · next E hE =>
    subst h
    exact Ops.cLoop_post M e 31 0 _ E' (by omega) (by omega) hE
  · cases h

/-- The computed mean anomaly is near the exact one, up to whole turns. -/
theorem round_wrap (hA : IsDouble A) (t tp per : ℝ) (hper : 0 < per) : ∃ n : ℤ, |A.meanAnomaly t tp per - (meanAnomaly t tp per + n * (2 * π))| ≤ 3.1e-15 + 1.446e-15 * (|t - tp| / per) := by
  obtain ⟨h1, -⟩ := round_mean hA t tp per
  have h2 := round_phase hA t tp per hper
  refine ⟨⌊(t - tp) / per⌋ - ⌊A.div (A.sub t tp) per⌋, ?_⟩
  unfold meanAnomaly
  generalize A.div (A.sub t tp) per = q at *
  generalize (t - tp) / per = q0 at *
  have h3 : |2 * π * (q - ⌊q⌋) - (2 * π * (q0 - ⌊q0⌋) + ((⌊q0⌋ - ⌊q⌋ : ℤ) : ℝ) * (2 * π))| ≤ 6.2832 * (2.3e-16 * (|t - tp| / per) + 1e-30) := by
    rw [show 2 * π * (q - ⌊q⌋) - (2 * π * (q0 - ⌊q0⌋) + ((⌊q0⌋ - ⌊q⌋ : ℤ) : ℝ) * (2 * π)) = 2 * π * (q - q0) by push_cast; ring]
    refine abs_mul_le ?_ h2
    rw [abs_of_pos (by positivity)]
    have := Real.pi_lt_d6
    norm_num at *; linarith
  refine (near_trans h1 h3).trans ?_
  have : 0 ≤ |t - tp| / per := by positivity
  generalize |t - tp| / per = Q at *
  norm_num at *; linarith

/-- Half the computed anomaly, doubled, is near the exact anomaly up to whole turns. -/
theorem round_anomaly (hA : IsDouble A) (t tp per e E E' : ℝ) (hper : 0 < per) (he : 0 ≤ e) (he1 : e ≤ 0.9900001) (hE : IsEccAnomaly e (meanAnomaly t tp per) E)
    (h : |A.fi (A.meanAnomaly t tp per) e E'| ≤ A.lit 1e-12) :
    |E'| ≤ 7.5 ∧ ∃ n : ℤ, |2 * A.div E' 2 - (E + n * (2 * π))| ≤ 1.0132e-10 + 1.4461e-13 * (|t - tp| / per) := by
  obtain ⟨-, hM⟩ := round_mean hA t tp per
  have e1 : e ≤ 1 := by norm_num at he1; linarith
  obtain ⟨h1, h2⟩ := round_fi hA _ e E' hM he e1 h
  obtain ⟨n, h3⟩ := round_wrap hA t tp per hper
  refine ⟨h2, n, ?_⟩
  have h4 := near_trans h1 h3
  have hs : E + n * (2 * π) - e * sin (E + n * (2 * π)) = meanAnomaly t tp per + n * (2 * π) := ecc_shift n hE
  rw [← hs] at h4
  have h5 := kepler_expand e E' (E + n * (2 * π)) he
  have hQ : 0 ≤ |t - tp| / per := by positivity
  have h6 : |E' - (E + n * (2 * π))| ≤ 1.01315e-10 + 1.4461e-13 * (|t - tp| / per) := by
    have h7 := h5.trans h4
    have h8 : 0.0099999 * |E' - (E + n * (2 * π))| ≤ (1 - e) * |E' - (E + n * (2 * π))| := mul_le_mul_of_nonneg_right (by norm_num at *; linarith) (abs_nonneg _)
    generalize |t - tp| / per = Q at *
    norm_num at *; linarith
  have h9 := (round_ratio hA e E' he he1 h2).2.2.1
  refine (near_trans h9 h6).trans ?_
  generalize |t - tp| / per = Q at *
  norm_num; linarith

theorem exactVel_turn (e om k E : ℝ) (n : ℤ) : exactVel e om k (E + n * (2 * π)) = exactVel e om k E := by
  unfold exactVel
  rw [cosNu_add_int, sinNu_add_int]

theorem lit_99 (hA : IsDouble A) {e : ℝ} (h : e ≤ A.lit 0.99) : e ≤ 0.9900001 := by
  have h1 := hA.lit 0.99
  have h2 := (abs_le.1 h1).2
  rw [abs_of_pos (by norm_num)] at h2
  have := unit_le
  norm_num at *; linarith

theorem round_circular (hA : IsDouble A) (t per tp om k E : ℝ) (hper : 0 < per) (hE : IsEccAnomaly 0 (meanAnomaly t tp per) E) :
    |A.mul k (A.cos (A.add (A.meanAnomaly t tp per) om)) - exactVel 0 om k E| ≤ |k| * (1e-14 + 1.5e-15 * (|t - tp| / per) + 1.2e-16 * |om|) + tiny := by
  have hv : exactVel 0 om k E = k * cos (meanAnomaly t tp per + om) := by
    have hE' : E = meanAnomaly t tp per := by simpa [IsEccAnomaly] using hE
    simp [exactVel, cosNu, sinNu, hE', Real.cos_add]
  rw [hv]
  obtain ⟨n, h1⟩ := round_wrap hA t tp per hper
  obtain ⟨-, hM⟩ := round_mean hA t tp per
  have hl := lib_le
  have h2 := hA.add (A.meanAnomaly t tp per) om
  generalize A.meanAnomaly t tp per = M at *
  have h2' : |A.add M om - (M + om)| ≤ 7e-16 + 1.1103e-16 * |om| := h2.trans (by
    have := mul_le_mul unit_le (abs_add_le M om) (abs_nonneg _) (by norm_num)
    norm_num at *; linarith)
  have h3 : |M + om - (meanAnomaly t tp per + om + n * (2 * π))| ≤ 3.1e-15 + 1.446e-15 * (|t - tp| / per) := by
    rw [show M + om - (meanAnomaly t tp per + om + n * (2 * π)) = M - (meanAnomaly t tp per + n * (2 * π)) by ring]; exact h1
  have h4 := near_cos (near_trans h2' h3)
  rw [Real.cos_add_int_mul_two_pi] at h4
  have h5 := (hA.cos (A.add M om)).trans hl
  have b := abs_of_near h5 (Real.abs_cos_le_one _)
  refine (round_last hA (near_trans h5 h4) (b.trans (by norm_num))).trans ?_
  have hQ : 0 ≤ |t - tp| / per := by positivity
  have := mul_le_mul_of_nonneg_left (show 8.9e-16 + (7e-16 + 1.1103e-16 * |om| + (3.1e-15 + 1.446e-15 * (|t - tp| / per))) + 4e-16 ≤ 1e-14 + 1.5e-15 * (|t - tp| / per) + 1.2e-16 * |om| by
    have := abs_nonneg om
    generalize |om| = x at *
    generalize |t - tp| / per = Q at *
    norm_num; linarith) (abs_nonneg k)
  linarith

theorem round_total {e om k a b v Q d : ℝ} (he : 0 ≤ e) (he1 : e ≤ 0.9900001) (hQ : 0 ≤ Q) (hv : |v - exactVel e om k a| ≤ |k| * (2e-14 + 1.2e-16 * |om|) + d)
    (h : |a - b| ≤ 1.0132e-10 + 1.4461e-13 * Q) : |v - exactVel e om k b| ≤ |k| * (1.43e-9 + 2.1e-12 * Q + 1.2e-16 * |om|) + d := by
  have h1 := exactVel_lipschitz he (by norm_num at he1; linarith) om k a b
  have h2 : |k| * √((1 + e) / (1 - e)) * |a - b| ≤ |k| * (14.1069 * (1.0132e-10 + 1.4461e-13 * Q)) := by
    rw [mul_assoc]
    exact mul_le_mul_of_nonneg_left (mul_le_mul (root_le e he1) h (abs_nonneg _) (by norm_num)) (abs_nonneg k)
  have h3 := near_trans hv (h1.trans h2)
  refine h3.trans ?_
  have := mul_le_mul_of_nonneg_left (show 2e-14 + 1.2e-16 * |om| + 14.1069 * (1.0132e-10 + 1.4461e-13 * Q) ≤ 1.43e-9 + 2.1e-12 * Q + 1.2e-16 * |om| by
    generalize |om| = x at *
    norm_num at *; linarith) (abs_nonneg k)
  linarith

/-- C169 (NumPy): in double precision, for every time, positive period, time of periastron, eccentricity from 0 to 0.99, argument and amplitude, and after any number of passes: a velocity that `rv_drive` returns
differs from the velocity of the exact orbit at that time by at most `k (1.43e-9 + 2.1e-12 |t - tp| / per + 1.2e-16 |om|)` (and the underflow unit). No pole is excluded. -/
theorem C169_numpy (hA : IsDouble A) (fuel : Nat) (t per tp e om k v E : ℝ) (hper : 0 < per) (he : 0 ≤ e) (he1 : e ≤ A.lit 0.99) (hE : IsEccAnomaly e (meanAnomaly t tp per) E)
    (h : A.rvDrive (A.npSolve fuel) A.rvNumpy t per tp e om k = some v) :
    |v - exactVel e om k E| ≤ |k| * (1.43e-9 + 2.1e-12 * (|t - tp| / per) + 1.2e-16 * |om|) + tiny := by
  have hQ : 0 ≤ |t - tp| / per := by positivity
  by_cases h0 : e = 0
  · subst h0
    simp only [Ops.rvDrive, if_true, Option.some.injEq] at h
    rw [← h]
    refine (round_circular hA t per tp om k E hper hE).trans ?_
    have := mul_le_mul_of_nonneg_left (show 1e-14 + 1.5e-15 * (|t - tp| / per) + 1.2e-16 * |om| ≤ 1.43e-9 + 2.1e-12 * (|t - tp| / per) + 1.2e-16 * |om| by
      generalize |t - tp| / per = Q at *
      norm_num; linarith) (abs_nonneg k)
    linarith
  · have e2 := lit_99 hA he1
    simp only [Ops.rvDrive, h0, if_false, hper.not_gt, he.not_gt, he1.not_gt, Option.map_eq_some_iff] at h
    obtain ⟨E', h1, rfl⟩ := h
    obtain ⟨h2, n, h3⟩ := round_anomaly hA t tp per e E E' hper he e2 hE (Ops.npSolve_post _ _ _ _ h1)
    have h4 := round_numpy hA e om k E' he e2 h2
    rw [rvNumpy_eq_exact (by linarith) (by norm_num at e2; linarith) om k _ (by rw [mul_div_cancel_left₀ _ (two_ne_zero)]; exact (round_ratio hA e E' he e2 h2).2.1)] at h4
    rw [← exactVel_turn e om k E n]
    exact round_total he e2 hQ h4 h3

/-- C169 (C): the same for the C solver and formula. -/
theorem C169_c (hA : IsDouble A) (t per tp e om k v E : ℝ) (hper : 0 < per) (he : 0 ≤ e) (he1 : e ≤ A.lit 0.99) (hE : IsEccAnomaly e (meanAnomaly t tp per) E)
    (h : A.rvDrive A.cSolve A.rvC t per tp e om k = some v) :
    |v - exactVel e om k E| ≤ |k| * (1.43e-9 + 2.1e-12 * (|t - tp| / per) + 1.2e-16 * |om|) + tiny := by
  have hQ : 0 ≤ |t - tp| / per := by positivity
  by_cases h0 : e = 0
  · subst h0
    simp only [Ops.rvDrive, if_true, Option.some.injEq] at h
    rw [← h]
    refine (round_circular hA t per tp om k E hper hE).trans ?_
    have := mul_le_mul_of_nonneg_left (show 1e-14 + 1.5e-15 * (|t - tp| / per) + 1.2e-16 * |om| ≤ 1.43e-9 + 2.1e-12 * (|t - tp| / per) + 1.2e-16 * |om| by
      generalize |t - tp| / per = Q at *
      norm_num; linarith) (abs_nonneg k)
    linarith
  · have e2 := lit_99 hA he1
    simp only [Ops.rvDrive, h0, if_false, hper.not_gt, he.not_gt, he1.not_gt, Option.map_eq_some_iff] at h
    obtain ⟨E', h1, rfl⟩ := h
    obtain ⟨h2, n, h3⟩ := round_anomaly hA t tp per e E E' hper he e2 hE (Ops.cSolve_post _ _ _ h1)
    have h4 := round_c hA e om k E' he e2 h2
    rw [rvC_eq_numpy, rvNumpy_eq_exact (by linarith) (by norm_num at e2; linarith) om k _ (by rw [mul_div_cancel_left₀ _ (two_ne_zero)]; exact (round_ratio hA e E' he e2 h2).2.1)] at h4
    rw [← exactVel_turn e om k E n]
    refine round_total he e2 hQ (h4.trans ?_) h3
    have := mul_le_mul_of_nonneg_left (show (2e-14 : ℝ) ≤ 2e-14 + 1.2e-16 * |om| by have := abs_nonneg om; linarith) (abs_nonneg k)
    linarith

/-- C169: in double precision, with or without the C extension, the velocities agree. -/
theorem C169_agree (hA : IsDouble A) (fuel : Nat) (t per tp e om k v v' : ℝ) (hper : 0 < per) (he : 0 ≤ e) (he1 : e ≤ A.lit 0.99)
    (h : A.rvDrive (A.npSolve fuel) A.rvNumpy t per tp e om k = some v) (h' : A.rvDrive A.cSolve A.rvC t per tp e om k = some v') :
    |v - v'| ≤ |k| * (2.86e-9 + 4.2e-12 * (|t - tp| / per) + 2.4e-16 * |om|) + 2 * tiny := by
  obtain ⟨E, hE⟩ := ecc_exists e (meanAnomaly t tp per) he (by have := lit_99 hA he1; norm_num at this; linarith)
  have h1 := C169_numpy hA fuel t per tp e om k v E hper he he1 hE h
  have h2 := C169_c hA t per tp e om k v' E hper he he1 hE h'
  rw [abs_sub_comm] at h2
  have h3 := near_trans h1 h2
  refine h3.trans (le_of_eq ?_)
  ring

/-! ### the rounded program with exact operations is the program of `Verif.Model.Kepler` -/

/-- Operations without rounding. -/
noncomputable def exactOps : Ops := ⟨(· + ·), (· - ·), (· * ·), (· / ·), Real.sqrt, Real.sin, Real.cos, Real.tan, Real.arctan, id⟩

theorem exact_danby (M e E : ℝ) : exactOps.danby M e E = danby M e E := rfl

theorem exact_unconverged (M e : ℝ) (E : Option ℝ) : exactOps.unconverged M e E = unconverged M e E := by cases E <;> rfl

theorem exact_npLoop (M e : ℝ) (fuel : Nat) (E : Option ℝ) : npLoop fuel [⟨M, e, E⟩] = (exactOps.npLoop M e fuel E).map (fun E => [⟨M, e, E⟩]) := by
  induction fuel generalizing E with
  | zero =>
    unfold npLoop Ops.npLoop
    rw [exact_unconverged]
    cases hu : unconverged M e E <;> simp [KElem.active, hu]
  | succ n ih =>
    unfold npLoop Ops.npLoop
    rw [exact_unconverged]
    cases hu : unconverged M e E
    · simp [KElem.active, hu]
    · simp only [List.any_cons, KElem.active, hu, List.any_nil, Bool.or_false, if_true, List.map_cons, List.map_nil, KElem.step]
      exact ih _

/-- C169: without rounding both rounded programs are the programs of the other theorems. -/
theorem C169_exact (t per tp e om k : ℝ) (fuel : Nat) :
    exactOps.rvDrive (exactOps.npSolve fuel) exactOps.rvNumpy t per tp e om k = rvDrive (npSolve fuel) rvNumpy t per tp e om k ∧
    exactOps.rvDrive exactOps.cSolve exactOps.rvC t per tp e om k = rvDrive cSolve rvC t per tp e om k := by
  have hnp : exactOps.npSolve fuel = npSolve fuel := by
    funext M e
    unfold Ops.npSolve npSolve npKepler npInit
    simp only [List.map_cons, List.map_nil]
    rw [exact_npLoop]
    have : exactOps.add M (exactOps.mul (exactOps.mul (SignType.sign (exactOps.sin M) : ℝ) (exactOps.lit 0.85)) e) = npGuess M e := rfl
    rw [this]
    rcases exactOps.npLoop M e fuel (some (npGuess M e)) with _ | _ | E <;> simp
  have hloop : ∀ M e fuel count E, exactOps.cLoop 30 M e fuel count E = cLoop 30 M e fuel count E := by
    intro M e fuel
    induction fuel with
    | zero => intros; rfl
    | succ n ih =>
      intro count E
      unfold Ops.cLoop cLoop
      rw [exact_unconverged]
      simp only [ih]
      rfl
  have hc : exactOps.cSolve = cSolve := by
    funext M e
    unfold Ops.cSolve cSolve cKepler
    rw [hloop]
    rfl
  have hf : exactOps.rvNumpy = rvNumpy := by
    funext e om k E
    have hsqrt : ((1 + e) / (1 - e)) ^ (0.5 : ℝ) = √((1 + e) / (1 - e)) := by
      rw [Real.sqrt_eq_rpow]; norm_num
    unfold rvNumpy trueAnomalyOf
    rw [hsqrt]
    rfl
  rw [hnp, hc, hf]
  exact ⟨rfl, rfl⟩

/-! ### non-vacuity -/

open Classical in
/-- A rounding that changes numbers: those between 1 and 2 go to the nearest multiple of 2⁻⁵². -/
noncomputable def gridRound (x : ℝ) : ℝ := if 1 ≤ |x| ∧ |x| ≤ 2 then (round (x * 2 ^ 52) : ℝ) / 2 ^ 52 else x

theorem gridRound_err (x : ℝ) : |gridRound x - x| ≤ unitRound * |x| := by
  unfold gridRound
  split
  · next h =>
    have h1 := abs_sub_round (x * 2 ^ 52)
    have h2 : (round (x * 2 ^ 52) : ℝ) / 2 ^ 52 - x = -(x * 2 ^ 52 - round (x * 2 ^ 52)) / 2 ^ 52 := by field_simp; ring
    rw [h2, abs_div, abs_neg, abs_of_pos (show (0 : ℝ) < 2 ^ 52 by positivity), div_le_iff₀ (by positivity)]
    refine h1.trans ?_
    have h3 := mul_le_mul_of_nonneg_left h.1 unit_pos.le
    have h4 : unitRound * 2 ^ 52 = 1 / 2 := by unfold unitRound; norm_num
    nlinarith [unit_pos]
  · rw [sub_self, abs_zero]
    have := unit_pos
    positivity

theorem gridRound_grid (x : ℝ) (h1 : 1 ≤ |gridRound x|) (h2 : |gridRound x| ≤ 2) : ∃ n : ℤ, gridRound x = n / 2 ^ 52 := by
  unfold gridRound at *
  split
  · exact ⟨_, rfl⟩
  · next h =>
    rw [if_neg h] at h1 h2
    exact absurd ⟨h1, h2⟩ h

/-- All operations followed by that rounding. -/
noncomputable def gridOps : Ops := ⟨fun a b => gridRound (a + b), fun a b => gridRound (a - b), fun a b => gridRound (a * b), fun a b => gridRound (a / b), fun a => gridRound √a, fun a => gridRound (Real.sin a),
  fun a => gridRound (Real.cos a), fun a => gridRound (Real.tan a), fun a => gridRound (Real.arctan a), gridRound⟩

/-- Arithmetic as assumed exists, and it need not be exact. -/
theorem gridOps_double : IsDouble gridOps := by
  have hu := unit_pos; have ht := tiny_pos
  have small : ∀ x P : ℝ, |x| ≤ P → P ≤ 2 → |gridRound x - x| ≤ 2 * unitRound := fun x P h1 h2 => (gridRound_err x).trans (by nlinarith)
  refine ⟨fun a b => gridRound_err _, fun a b => gridRound_err _, fun a b => ?_, fun a b _ => ?_, fun a ha => ?_, fun a => ?_, fun a => ?_, fun a _ => ?_, fun a => ?_, fun a => gridRound_err _, fun a b => gridRound_grid _⟩
  · exact (gridRound_err _).trans (by linarith)
  · exact (gridRound_err _).trans (by linarith)
  · refine (gridRound_err _).trans ?_
    rw [abs_of_nonneg (Real.sqrt_nonneg a)]
    unfold libErr
    nlinarith [Real.sqrt_nonneg a]
  · refine (small _ 1 (Real.abs_sin_le_one a) (by norm_num)).trans ?_
    unfold libErr; linarith
  · refine (small _ 1 (Real.abs_cos_le_one a) (by norm_num)).trans ?_
    unfold libErr; linarith
  · refine (gridRound_err _).trans ?_
    unfold libErr
    nlinarith [abs_nonneg (tan a)]
  · refine (small _ (π / 2) ?_ (by have := Real.pi_lt_d2; norm_num at *; linarith)).trans ?_
    · rw [abs_le]
      exact ⟨(Real.neg_pi_div_two_lt_arctan a).le, (Real.arctan_lt_pi_div_two a).le⟩
    · unfold libErr; linarith

theorem gridRound_zero : gridRound 0 = 0 := by
  unfold gridRound
  rw [if_neg]
  norm_num

/-- The hypotheses of C169 hold, with an arithmetic that rounds, for an orbit of eccentricity 0.5 at periastron; rounding is visible. -/
example : IsDouble gridOps ∧ gridOps.lit (1 + 1 / 2 ^ 60) ≠ 1 + 1 / 2 ^ 60 ∧ (0.5 : ℝ) ≤ gridOps.lit 0.99 ∧ (∃ v, gridOps.rvDrive (gridOps.npSolve 0) gridOps.rvNumpy 2 5 2 0.5 1 3 = some v) ∧
    (∃ v, gridOps.rvDrive gridOps.cSolve gridOps.rvC 2 5 2 0.5 1 3 = some v) ∧ ∃ E, IsEccAnomaly 0.5 (meanAnomaly 2 2 5) E := by
  have l99 : gridOps.lit 0.99 = 0.99 := by
    show gridRound 0.99 = 0.99
    unfold gridRound
    rw [if_neg]
    norm_num [abs_of_pos]
  have l12 : gridOps.lit 1e-12 = 1e-12 := by
    show gridRound 1e-12 = 1e-12
    unfold gridRound
    rw [if_neg]
    norm_num [abs_of_pos]
  have hm : gridOps.meanAnomaly 2 2 5 = 0 := by
    simp [Ops.meanAnomaly, gridOps, gridRound_zero]
  have hfi : gridOps.fi 0 0.5 0 = 0 := by simp [Ops.fi, gridOps, gridRound_zero]
  have hu : gridOps.unconverged 0 0.5 (some 0) = false := by
    simp only [Ops.unconverged, hfi, l12, abs_zero, decide_eq_false_iff_not, gt_iff_lt, not_lt]
    norm_num
  have hg : ∀ x : ℝ, gridOps.add 0 (gridOps.mul (gridOps.mul 0 x) 0.5) = 0 := by intro x; simp [gridOps, gridRound_zero]
  have hs : gridOps.sin 0 = 0 := by simp [gridOps, gridRound_zero]
  have hcs : cSign 0 = 0 := by unfold cSign; norm_num
  refine ⟨gridOps_double, ?_, by rw [l99]; norm_num, ?_, ?_, ecc_exists _ _ (by norm_num) (by norm_num)⟩
  · show gridRound _ ≠ _
    unfold gridRound
    rw [if_pos (by constructor <;> norm_num [abs_of_pos])]
    have : round ((1 + 1 / 2 ^ 60 : ℝ) * 2 ^ 52) = 2 ^ 52 := by
      rw [round_eq, Int.floor_eq_iff]
      norm_num
    rw [this]
    norm_num
  · have : gridOps.npSolve 0 0 0.5 = some 0 := by
      unfold Ops.npSolve
      rw [hs]
      simp only [sign_zero, SignType.coe_zero, hg]
      unfold Ops.npLoop
      simp [hu]
    simp only [Ops.rvDrive, l99, if_neg (show ¬ (0.5 : ℝ) = 0 by norm_num), if_neg (show ¬ (5 : ℝ) < 0 by norm_num), if_neg (show ¬ (0.5 : ℝ) < 0 by norm_num), if_neg (show ¬ (0.5 : ℝ) > 0.99 by norm_num), hm, this]
    exact ⟨_, rfl⟩
  · have : gridOps.cSolve 0 0.5 = some 0 := by
      unfold Ops.cSolve
      rw [hs, hcs, hg]
      unfold Ops.cLoop
      simp [hu]
    simp only [Ops.rvDrive, l99, if_neg (show ¬ (0.5 : ℝ) = 0 by norm_num), if_neg (show ¬ (5 : ℝ) < 0 by norm_num), if_neg (show ¬ (0.5 : ℝ) < 0 by norm_num), if_neg (show ¬ (0.5 : ℝ) > 0.99 by norm_num), hm, this]
    exact ⟨_, rfl⟩

end Radvel
