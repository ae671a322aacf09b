import Verif.Lemmas.Basis
import Verif.Spec.Basis
import Verif.Lemmas.Orbit

namespace Radvel
open Real

theorem arctan2_polar {r : ℝ} (hr : 0 < r) (w : ℝ) : ∃ n : ℤ, arctan2 (r * sin w) (r * cos w) = w + n * (2 * π) := by
  have h := Complex.arg_mul_cos_add_sin_mul_I_coe_angle hr (w : Real.Angle)
  have hz : ((r : ℂ) * (Real.Angle.cos (w : Real.Angle) + Real.Angle.sin (w : Real.Angle) * Complex.I)) =
      (⟨r * cos w, r * sin w⟩ : ℂ) := by
    apply Complex.ext <;> simp [Complex.cos_ofReal_re, Complex.sin_ofReal_re]
  rw [hz, Real.Angle.angle_eq_iff_two_pi_dvd_sub] at h
  obtain ⟨n, hn⟩ := h
  exact ⟨n, by unfold arctan2; linarith⟩

theorem norm_mk (x y : ℝ) : ‖(⟨x, y⟩ : ℂ)‖ = √(x ^ 2 + y ^ 2) := by
  rw [Complex.norm_eq_sqrt_sq_add_sq]

theorem cart_cos (x y : ℝ) : √(x ^ 2 + y ^ 2) * cos (arctan2 y x) = x := by
  rw [← norm_mk]; exact Complex.norm_mul_cos_arg _

theorem cart_sin (x y : ℝ) : √(x ^ 2 + y ^ 2) * sin (arctan2 y x) = y := by
  rw [← norm_mk]; exact Complex.norm_mul_sin_arg _

theorem eccAnomalyAt_shift (f e : ℝ) (n : ℤ) : eccAnomalyAt (f - n * (2 * π)) e = eccAnomalyAt f e := by
  unfold eccAnomalyAt
  have : (f - n * (2 * π)) / 2 = f / 2 - n * π := by ring
  rw [this, Real.tan_sub_int_mul_pi]

theorem timetrans_shift (tc per e w : ℝ) (n : ℤ) :
    timetransToTimeperi tc per e (w + n * (2 * π)) = timetransToTimeperi tc per e w := by
  unfold timetransToTimeperi
  have : π / 2 - (w + n * (2 * π)) = π / 2 - w - n * (2 * π) := by ring
  rw [this, eccAnomalyAt_shift]

theorem timeperi_shift (tp per e w : ℝ) (n : ℤ) :
    timeperiToTimetrans tp per e (w + n * (2 * π)) false = timeperiToTimetrans tp per e w false := by
  unfold timeperiToTimetrans
  have : π / 2 - (w + n * (2 * π)) = π / 2 - w - n * (2 * π) := by ring
  simp only [this, eccAnomalyAt_shift, Bool.false_eq_true, if_false]

theorem tp_tc_tp (tp per e om : ℝ) :
    timetransToTimeperi (timeperiToTimetrans tp per e om false) per e om = tp := by
  unfold timetransToTimeperi timeperiToTimetrans
  split <;> simp

theorem tc_tp_tc (tc per e om : ℝ) :
    timeperiToTimetrans (timetransToTimeperi tc per e om) per e om false = tc := by
  unfold timetransToTimeperi timeperiToTimetrans
  split <;> simp

theorem sq_polar {e : ℝ} (he : 0 ≤ e) (w : ℝ) : (√e * cos w) ^ 2 + (√e * sin w) ^ 2 = e := by
  have h1 := Real.sq_sqrt he
  have h2 := Real.sin_sq_add_cos_sq w
  calc (√e * cos w) ^ 2 + (√e * sin w) ^ 2 = √e ^ 2 * (sin w ^ 2 + cos w ^ 2) := by ring
    _ = e := by rw [h1, h2, mul_one]

theorem sqrt_polar {e : ℝ} (he : 0 ≤ e) (w : ℝ) : √((e * cos w) ^ 2 + (e * sin w) ^ 2) = e := by
  have h2 := Real.sin_sq_add_cos_sq w
  have : (e * cos w) ^ 2 + (e * sin w) ^ 2 = e ^ 2 := by
    calc (e * cos w) ^ 2 + (e * sin w) ^ 2 = e ^ 2 * (sin w ^ 2 + cos w ^ 2) := by ring
      _ = e ^ 2 := by rw [h2, mul_one]
  rw [this, Real.sqrt_sq he]

/-- synth → basis → synth for an eccentric orbit. -/
theorem roundtrip (nb : BasisName) (s : Synth) (hper : 0 < s.per) (he : 0 < s.e) (hk : 0 < s.k) :
    SameOrbit s (synthOfVals nb (valOf s)) := by
  have hw0 : ∃ n : ℤ, s.w = s.w + n * (2 * π) := ⟨0, by simp⟩
  have hlp := Real.exp_log hper
  have hlk := Real.exp_log hk
  obtain ⟨n, hn⟩ := arctan2_polar (Real.sqrt_pos.2 he) s.w
  obtain ⟨m, hm⟩ := arctan2_polar he s.w
  have hsq := sq_polar he.le s.w
  have hse := sqrt_polar he.le s.w
  have hs2 := Real.sq_sqrt he.le
  cases nb <;> simp only [SameOrbit, synthOfVals, valOf, hlp, hlk, hn, hm, hsq, hse, hs2, timetrans_shift, tp_tc_tp, true_and] <;>
    first | exact hw0 | exact ⟨n, rfl⟩ | exact ⟨m, rfl⟩

/-- basis → synth → basis. -/
theorem roundtrip_basis (b : BasisName) (v : Vals) (x : PName) (hx : x ∈ b.words)
    (hp : b = .perTcTpEWK → x ≠ .tc) (hse : b = .perTcSeWK → 0 ≤ v .se) :
    valOf (synthOfVals b v) x = v x := by
  have c1 := fun a b => cart_cos a b
  have c2 := fun a b => cart_sin a b
  cases b <;> cases x <;> simp [BasisName.words] at hx <;>
    simp_all [valOf, synthOfVals, tc_tp_tc, Real.log_exp, cart_cos, cart_sin, Real.sqrt_sq]

/-! ### circular orbits -/

theorem circular_eq (t per tp om k : ℝ) : rvCircular t per tp om k = k * cos (2 * π * ((t - tp) / per) + om) := by
  unfold rvCircular meanAnomaly
  have : 2 * π * ((t - tp) / per - ↑⌊(t - tp) / per⌋) + om =
      2 * π * ((t - tp) / per) + om - (⌊(t - tp) / per⌋ : ℤ) * (2 * π) := by ring
  rw [this, Real.cos_sub_int_mul_two_pi]

theorem ecc_zero (f : ℝ) (h : cos (f / 2) ≠ 0) : cos (eccAnomalyAt f 0) = cos f ∧ sin (eccAnomalyAt f 0) = sin f := by
  unfold eccAnomalyAt
  have : √((1 - 0) / (1 + 0) : ℝ) = 1 := by norm_num
  rw [this, mul_one, cos_two_arctan, sin_two_arctan, cos_of_half_tan f h, sin_of_half_tan f h]
  exact ⟨rfl, rfl⟩

theorem ecc_zero_half : eccAnomalyAt (π / 2 - 0) 0 = π / 2 := by
  unfold eccAnomalyAt
  have h1 : √((1 - 0) / (1 + 0) : ℝ) = 1 := by norm_num
  have h2 : (π / 2 - 0) / 2 = π / 4 := by ring
  rw [h1, h2, Real.tan_pi_div_four, mul_one, Real.arctan_one]; ring

theorem arctan2_zero : arctan2 0 0 = 0 := by
  unfold arctan2
  have : (⟨0, 0⟩ : ℂ) = 0 := rfl
  rw [this, Complex.arg_zero]

theorem circ_shift (t per tp w k : ℝ) (hper : per ≠ 0) (hw : cos ((π / 2 - w) / 2) ≠ 0) :
    rvCircular t per (timetransToTimeperi (timeperiToTimetrans tp per 0 w false) per 0 0) 0 k = rvCircular t per tp w k := by
  obtain ⟨h1, h2⟩ := ecc_zero _ hw
  rw [circular_eq, circular_eq]
  have h0 : ¬ (0 : ℝ) ≥ 1 := by norm_num
  simp only [timetransToTimeperi, timeperiToTimetrans, h0, if_false, zero_mul, sub_zero, Bool.false_eq_true]
  have h3 : eccAnomalyAt (π / 2) 0 = π / 2 := by simpa using ecc_zero_half
  rw [h3]
  set E := eccAnomalyAt (π / 2 - w) 0 with hE
  have hpi := Real.pi_ne_zero
  have : 2 * π * ((t - (tp + per / (2 * π) * E - per / (2 * π) * (π / 2))) / per) + 0 = 2 * π * ((t - tp) / per) - E + π / 2 := by
    field_simp; ring
  rw [this, Real.cos_add_pi_div_two, Real.sin_sub, h1, h2, Real.cos_pi_div_two_sub, Real.sin_pi_div_two_sub, Real.cos_add]
  ring

/-- synth → basis → synth for a circular orbit: `tp` and `w` may change but the curve does not. -/
theorem roundtrip_circ (nb : BasisName) (s : Synth) (hper : 0 < s.per) (he : s.e = 0) (hk : 0 < s.k)
    (hw : cos ((π / 2 - s.w) / 2) ≠ 0) :
    (synthOfVals nb (valOf s)).per = s.per ∧ (synthOfVals nb (valOf s)).e = 0 ∧ (synthOfVals nb (valOf s)).k = s.k ∧
    ∀ t, rvCircular t (synthOfVals nb (valOf s)).per (synthOfVals nb (valOf s)).tp (synthOfVals nb (valOf s)).w
      (synthOfVals nb (valOf s)).k = rvCircular t s.per s.tp s.w s.k := by
  have hlp := Real.exp_log hper
  have hlk := Real.exp_log hk
  have h0 : (0 : ℝ) ^ 2 = 0 := by norm_num
  cases nb <;> simp only [synthOfVals, valOf, hlp, hlk, he, Real.sqrt_zero, zero_mul, h0, add_zero, arctan2_zero, tp_tc_tp,
      true_and, implies_true, and_self] <;>
    exact fun t => circ_shift t s.per s.tp s.w s.k hper.ne' hw

theorem formula_periodic {formula : ℝ → ℝ → ℝ → ℝ → ℝ} (hf : CodeFormula formula) (e om k E : ℝ) (n : ℤ) :
    formula e (om + n * (2 * π)) k E = formula e om k E := by
  have h : rvNumpy e (om + n * (2 * π)) k E = rvNumpy e om k E := by
    unfold rvNumpy
    rw [← add_assoc, Real.cos_add_int_mul_two_pi, Real.cos_add_int_mul_two_pi]
  rcases hf with rfl | rfl
  · exact h
  · rw [rvC_eq_numpy, rvC_eq_numpy, h]

theorem drive_sameOrbit {formula : ℝ → ℝ → ℝ → ℝ → ℝ} (hf : CodeFormula formula) (solve : ℝ → ℝ → Option ℝ) (t : ℝ)
    {s s' : Synth} (h : SameOrbit s s') (he : s.e ≠ 0) : driveOf solve formula t s' = driveOf solve formula t s := by
  obtain ⟨h1, h2, h3, h4, n, h5⟩ := h
  simp only [driveOf, rvDrive, if_neg he, h1, h2, h3, h4, h5]
  simp only [formula_periodic hf]

theorem drive_roundtrip {formula : ℝ → ℝ → ℝ → ℝ → ℝ} (hf : CodeFormula formula) (solve : ℝ → ℝ → Option ℝ) (t : ℝ)
    (nb : BasisName) (s : Synth) (h : PhysOrbit s) :
    driveOf solve formula t (synthOfVals nb (valOf s)) = driveOf solve formula t s := by
  by_cases he : s.e = 0
  · obtain ⟨h1, h2, h3, h4⟩ := roundtrip_circ nb s h.per he h.k (h.pole he)
    simp only [driveOf, rvDrive, he, h2, if_true, h4 t]
  · exact drive_sameOrbit hf solve t (roundtrip nb s h.per (lt_of_le_of_ne h.e0 (Ne.symm he)) h.k) he

end Radvel
