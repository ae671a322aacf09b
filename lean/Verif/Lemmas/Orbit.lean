import Verif.Model.Kepler
import Verif.Spec.Kepler
import Verif.Props.Kepler
import Mathlib.Tactic.Linarith
import Mathlib.Tactic.FieldSimp
import Mathlib.Tactic.Positivity
import Mathlib.Tactic.Ring
import Mathlib.Tactic.LinearCombination

/-!
Trigonometric lemmas for the orbit properties (helpers, not property statements).
-/

namespace Radvel
open Real

theorem one_sub_mul_cos_pos {e : ℝ} (he : 0 ≤ e) (he1 : e < 1) (E : ℝ) : 0 < 1 - e * cos E := by
  have h1 := Real.cos_le_one E
  have h2 := Real.neg_one_le_cos E
  nlinarith

theorem one_sub_le_mul_cos {e : ℝ} (he : 0 ≤ e) (E : ℝ) : 1 - e ≤ 1 - e * cos E := by
  have h1 := Real.cos_le_one E
  nlinarith

theorem cos_two_arctan (u : ℝ) : cos (2 * arctan u) = (1 - u ^ 2) / (1 + u ^ 2) := by
  rw [Real.cos_two_mul, Real.cos_sq_arctan]
  have : (1 : ℝ) + u ^ 2 ≠ 0 := by positivity
  field_simp; ring

theorem sin_two_arctan (u : ℝ) : sin (2 * arctan u) = 2 * u / (1 + u ^ 2) := by
  have h1 : cos (arctan u) ≠ 0 := (Real.cos_arctan_pos u).ne'
  have h2 : sin (arctan u) = u * cos (arctan u) := by
    have := Real.tan_arctan u
    rw [Real.tan_eq_sin_div_cos] at this
    field_simp at this
    linarith
  rw [Real.sin_two_mul, h2]
  have h3 := Real.cos_sq_arctan u
  have : 2 * (u * cos (arctan u)) * cos (arctan u) = 2 * u * cos (arctan u) ^ 2 := by ring
  rw [this, h3]; ring

theorem cos_of_half_tan (f : ℝ) (h : cos (f / 2) ≠ 0) : cos f = (1 - tan (f / 2) ^ 2) / (1 + tan (f / 2) ^ 2) := by
  have h1 : cos f = 2 * cos (f / 2) ^ 2 - 1 := by rw [← Real.cos_two_mul]; ring_nf
  have h2 := Real.sin_sq_add_cos_sq (f / 2)
  rw [Real.tan_eq_sin_div_cos, h1]
  have h3 : (1 : ℝ) + (sin (f / 2) / cos (f / 2)) ^ 2 ≠ 0 := by positivity
  rw [eq_div_iff h3]
  field_simp
  linear_combination (2 * cos (f / 2) ^ 2) * h2

theorem sin_of_half_tan (f : ℝ) (h : cos (f / 2) ≠ 0) : sin f = 2 * tan (f / 2) / (1 + tan (f / 2) ^ 2) := by
  have h1 : sin f = 2 * sin (f / 2) * cos (f / 2) := by rw [← Real.sin_two_mul]; ring_nf
  have h2 := Real.sin_sq_add_cos_sq (f / 2)
  rw [Real.tan_eq_sin_div_cos, h1]
  have h3 : (1 : ℝ) + (sin (f / 2) / cos (f / 2)) ^ 2 ≠ 0 := by positivity
  rw [eq_div_iff h3]
  field_simp
  linear_combination (sin (f / 2)) * h2

/-- Half-angle relation between the two anomalies: if `tan(ν/2)² (1-e) = tan(E/2)² (1+e)` and the signs match. -/
theorem nu_of_tangents {e x u : ℝ} (he : -1 < e) (he1 : e < 1) (s : ℝ) (hs : 0 < s) (hs2 : s ^ 2 = (1 - e) / (1 + e))
    (hu : u = x * s) :
    ((1 - u ^ 2) / (1 + u ^ 2) - e) / (1 - e * ((1 - u ^ 2) / (1 + u ^ 2))) = (1 - x ^ 2) / (1 + x ^ 2) ∧
    √(1 - e ^ 2) * (2 * u / (1 + u ^ 2)) / (1 - e * ((1 - u ^ 2) / (1 + u ^ 2))) = 2 * x / (1 + x ^ 2) := by
  have p : 0 < 1 + e := by linarith
  have q : 0 < 1 - e := by linarith
  have hs2' : (1 + e) * s ^ 2 = 1 - e := by rw [hs2]; field_simp
  have hu2 : (1 + e) * u ^ 2 = (1 - e) * x ^ 2 := by rw [hu, mul_pow]; linear_combination x ^ 2 * hs2'
  have a : 0 < 1 + u ^ 2 := by positivity
  have b : 0 < 1 + x ^ 2 := by positivity
  have hden : 1 - e * ((1 - u ^ 2) / (1 + u ^ 2)) = (1 - e) * (1 + x ^ 2) / (1 + u ^ 2) := by
    field_simp; linear_combination hu2
  have hroot : √(1 - e ^ 2) * s = 1 - e := by
    have h1 : √(1 - e ^ 2) = (1 + e) * s := by
      rw [Real.sqrt_eq_iff_mul_self_eq (by nlinarith) (by positivity)]
      linear_combination (-1 - e) * hs2'
    rw [h1]; linear_combination hs2'
  rw [hden]
  constructor
  · field_simp; linear_combination -hu2
  · rw [hu]
    have : √(1 - e ^ 2) * (2 * (x * s) / (1 + (x * s) ^ 2)) = (1 - e) * (2 * x / (1 + (x * s) ^ 2)) := by
      linear_combination (2 * x / (1 + (x * s) ^ 2)) * hroot
    rw [this]
    have a' : (1 + (x * s) ^ 2 : ℝ) ≠ 0 := by positivity
    field_simp

/-- The anomaly computed by the code from a true anomaly `f` has true anomaly `f`. -/
theorem nu_eccAnomalyAt {e f : ℝ} (he : -1 < e) (he1 : e < 1) (hf : cos (f / 2) ≠ 0) :
    cosNu e (eccAnomalyAt f e) = cos f ∧ sinNu e (eccAnomalyAt f e) = sin f := by
  have p : 0 < 1 + e := by linarith
  have q : 0 < 1 - e := by linarith
  have := nu_of_tangents (x := tan (f / 2)) he he1 (√((1 - e) / (1 + e))) (by positivity) (Real.sq_sqrt (by positivity)) rfl
  rw [← cos_of_half_tan f hf, ← sin_of_half_tan f hf, ← cos_two_arctan, ← sin_two_arctan] at this
  exact this

/-- The true anomaly computed by the code is the true anomaly of `E`. -/
theorem trueAnomalyOf_spec {e E : ℝ} (he : -1 < e) (he1 : e < 1) (hE : cos (E / 2) ≠ 0) :
    IsTrueAnomaly e E (trueAnomalyOf e E) := by
  have p : 0 < 1 + e := by linarith
  have q : 0 < 1 - e := by linarith
  have hsqrt : ((1 + e) / (1 - e)) ^ (0.5 : ℝ) = √((1 + e) / (1 - e)) := by
    rw [Real.sqrt_eq_rpow]; norm_num
  have hinv : √((1 + e) / (1 - e)) * √((1 - e) / (1 + e)) = 1 := by
    rw [← Real.sqrt_mul (by positivity)]
    rw [show (1 + e) / (1 - e) * ((1 - e) / (1 + e)) = 1 by field_simp]; exact Real.sqrt_one
  have := nu_of_tangents (x := √((1 + e) / (1 - e)) * tan (E / 2)) (u := tan (E / 2)) he he1 (√((1 - e) / (1 + e)))
    (by positivity) (Real.sq_sqrt (by positivity)) (by linear_combination (-tan (E / 2)) * hinv)
  rw [← cos_of_half_tan E hE, ← sin_of_half_tan E hE, ← cos_two_arctan, ← sin_two_arctan] at this
  unfold IsTrueAnomaly trueAnomalyOf cosNu sinNu
  rw [hsqrt]
  exact ⟨this.1.symm, this.2.symm⟩

theorem cosNu_sq_add_sinNu_sq {e : ℝ} (he : 0 ≤ e) (he1 : e < 1) (E : ℝ) : cosNu e E ^ 2 + sinNu e E ^ 2 = 1 := by
  have hd := (one_sub_mul_cos_pos he he1 E).ne'
  have hr : √(1 - e ^ 2) ^ 2 = 1 - e ^ 2 := Real.sq_sqrt (by nlinarith)
  have h2 := Real.sin_sq_add_cos_sq E
  unfold cosNu sinNu
  rw [div_pow, div_pow, ← add_div, div_eq_one_iff_eq (by positivity), mul_pow, hr]
  linear_combination (1 - e ^ 2) * h2

theorem cosNu_add_int (e E : ℝ) (n : ℤ) : cosNu e (E + n * (2 * π)) = cosNu e E := by
  simp [cosNu, Real.cos_add_int_mul_two_pi]

theorem sinNu_add_int (e E : ℝ) (n : ℤ) : sinNu e (E + n * (2 * π)) = sinNu e E := by
  simp [sinNu, Real.cos_add_int_mul_two_pi, Real.sin_add_int_mul_two_pi]

/-- Every direction is a true anomaly. -/
theorem nu_surjective {e : ℝ} (he : 0 ≤ e) (he1 : e < 1) (θ : ℝ) : ∃ E, cosNu e E = cos θ ∧ sinNu e E = sin θ := by
  by_cases h : cos (θ / 2) = 0
  · refine ⟨π, ?_, ?_⟩
    · have h1 : cos θ = -1 := by
        have : cos θ = 2 * cos (θ / 2) ^ 2 - 1 := by rw [← Real.cos_two_mul]; ring_nf
        rw [this, h]; norm_num
      rw [h1, cosNu, Real.cos_pi]
      have : (1 - e * -1 : ℝ) ≠ 0 := by linarith
      rw [div_eq_iff this]; ring
    · have h1 : sin θ = 0 := by
        have : sin θ = 2 * sin (θ / 2) * cos (θ / 2) := by rw [← Real.sin_two_mul]; ring_nf
        rw [this, h]; ring
      simp [sinNu, h1]
  · exact ⟨_, nu_eccAnomalyAt (by linarith) he1 h⟩

/-- Distance of two points of the orbit seen from the star, in terms of the eccentric anomalies. -/
theorem nu_chord {e : ℝ} (he : 0 ≤ e) (he1 : e < 1) (E E' : ℝ) :
    (cosNu e E - cosNu e E') ^ 2 + (sinNu e E - sinNu e E') ^ 2 ≤ (1 + e) / (1 - e) * (E - E') ^ 2 := by
  have q : 0 < 1 - e := by linarith
  have hd := one_sub_mul_cos_pos he he1 E
  have hd' := one_sub_mul_cos_pos he he1 E'
  have hr : √(1 - e ^ 2) ^ 2 = 1 - e ^ 2 := Real.sq_sqrt (by nlinarith)
  have n1 := cosNu_sq_add_sinNu_sq he he1 E
  have n2 := cosNu_sq_add_sinNu_sq he he1 E'
  have key : 1 - (cosNu e E * cosNu e E' + sinNu e E * sinNu e E') =
      (1 - e ^ 2) * (1 - cos (E - E')) / ((1 - e * cos E) * (1 - e * cos E')) := by
    unfold cosNu sinNu
    rw [Real.cos_sub]
    have hdn : (1 - e * cos E) * (1 - e * cos E') ≠ 0 := (mul_pos hd hd').ne'
    rw [div_mul_div_comm, div_mul_div_comm, ← add_div, eq_div_iff hdn, sub_mul, div_mul_cancel₀ _ hdn]
    linear_combination (-sin E * sin E') * hr
  have h1 : (cosNu e E - cosNu e E') ^ 2 + (sinNu e E - sinNu e E') ^ 2 =
      2 * ((1 - e ^ 2) * (1 - cos (E - E')) / ((1 - e * cos E) * (1 - e * cos E'))) := by
    rw [← key]; linear_combination n1 + n2
  rw [h1]
  have h2 : 1 - cos (E - E') ≤ (E - E') ^ 2 / 2 := by
    have := Real.one_sub_sq_div_two_le_cos (x := E - E'); linarith
  have h3 : 0 ≤ 1 - cos (E - E') := by linarith [Real.cos_le_one (E - E')]
  have h4 : (1 - e) * (1 - e) ≤ (1 - e * cos E) * (1 - e * cos E') :=
    mul_le_mul (one_sub_le_mul_cos he E) (one_sub_le_mul_cos he E') q.le hd.le
  have h5 : (1 - e ^ 2) * (1 - cos (E - E')) / ((1 - e * cos E) * (1 - e * cos E')) ≤
      (1 - e ^ 2) * ((E - E') ^ 2 / 2) / ((1 - e) * (1 - e)) := by
    have : 0 ≤ 1 - e ^ 2 := by nlinarith
    apply div_le_div₀ (by positivity) (mul_le_mul_of_nonneg_left h2 this) (by positivity) h4
  calc 2 * ((1 - e ^ 2) * (1 - cos (E - E')) / ((1 - e * cos E) * (1 - e * cos E')))
      ≤ 2 * ((1 - e ^ 2) * ((E - E') ^ 2 / 2) / ((1 - e) * (1 - e))) := by linarith
    _ = (1 + e) / (1 - e) * (E - E') ^ 2 := by field_simp; ring

theorem abs_rot_le (a b c s : ℝ) (h : c ^ 2 + s ^ 2 = 1) : |a * c - b * s| ≤ √(a ^ 2 + b ^ 2) := by
  apply Real.abs_le_sqrt
  have : (a * c - b * s) ^ 2 + (a * s + b * c) ^ 2 = a ^ 2 + b ^ 2 := by
    linear_combination (a ^ 2 + b ^ 2) * h
  nlinarith [sq_nonneg (a * s + b * c)]

/-- The exact velocity is Lipschitz in the eccentric anomaly. -/
theorem exactVel_lipschitz {e : ℝ} (he : 0 ≤ e) (he1 : e < 1) (om k E E' : ℝ) :
    |exactVel e om k E - exactVel e om k E'| ≤ |k| * √((1 + e) / (1 - e)) * |E - E'| := by
  have q : 0 < 1 - e := by linarith
  have h1 : exactVel e om k E - exactVel e om k E' =
      k * ((cosNu e E - cosNu e E') * cos om - (sinNu e E - sinNu e E') * sin om) := by
    unfold exactVel; ring
  rw [h1, abs_mul, mul_assoc]
  apply mul_le_mul_of_nonneg_left _ (abs_nonneg k)
  refine (abs_rot_le _ _ _ _ (Real.cos_sq_add_sin_sq om)).trans ?_
  rw [← Real.sqrt_sq_eq_abs (E - E'), ← Real.sqrt_mul (by positivity)]
  exact Real.sqrt_le_sqrt (nu_chord he he1 E E')

theorem rvNumpy_eq_exact {e : ℝ} (he : -1 < e) (he1 : e < 1) (om k E : ℝ) (hE : cos (E / 2) ≠ 0) :
    rvNumpy e om k E = exactVel e om k E := by
  obtain ⟨h1, h2⟩ := trueAnomalyOf_spec he he1 hE
  unfold rvNumpy exactVel
  rw [Real.cos_add, h1, h2]

theorem rvC_eq_numpy (e om k E : ℝ) : rvC e om k E = rvNumpy e om k E := by
  have hsqrt : ((1 + e) / (1 - e)) ^ (0.5 : ℝ) = √((1 + e) / (1 - e)) := by
    rw [Real.sqrt_eq_rpow]; norm_num
  unfold rvC rvNumpy trueAnomalyOf
  rw [hsqrt, Real.cos_add, cos_two_arctan, sin_two_arctan]
  have : (1 + (√((1 + e) / (1 - e)) * tan (E / 2)) ^ 2 : ℝ) ≠ 0 := by positivity
  have h' : (1 + (√((1 + e) / (1 - e)) * tan (E / 2)) * (√((1 + e) / (1 - e)) * tan (E / 2)) : ℝ) ≠ 0 := by
    rw [← sq]; exact this
  simp only
  generalize √((1 + e) / (1 - e)) * tan (E / 2) = r at *
  field_simp
  ring

theorem meanAnomaly_wrap (M tp per : ℝ) (hper : per ≠ 0) :
    ∃ n : ℤ, meanAnomaly (tp + per / (2 * π) * M) tp per = M + n * (2 * π) := by
  have h : (tp + per / (2 * π) * M - tp) / per = M / (2 * π) := by
    have := Real.pi_pos.ne'
    field_simp; ring
  refine ⟨-⌊M / (2 * π)⌋, ?_⟩
  unfold meanAnomaly
  rw [h]
  have := Real.pi_pos.ne'
  push_cast
  field_simp
  ring

theorem ecc_shift {e M E : ℝ} (n : ℤ) (h : IsEccAnomaly e M E) : IsEccAnomaly e (M + n * (2 * π)) (E + n * (2 * π)) := by
  unfold IsEccAnomaly at *
  rw [Real.sin_add_int_mul_two_pi]
  linarith

end Radvel
