import Verif.Lemmas.KeplerStep
import Verif.Lemmas.KeplerBoxSound
import Verif.Lemmas.KeplerCover

/-! # Lemmas for C167: corrections from the right of the solution -/

namespace Radvel
open Real

/-- Nonnegative derivatives. -/
theorem nonneg_of_deriv {f f' : ℝ → ℝ} (hd : ∀ x, HasDerivAt f (f' x) x) (h0 : f 0 = 0) (hp : ∀ x, 0 ≤ x → 0 ≤ f' x) (x : ℝ) (hx : 0 ≤ x) : 0 ≤ f x := by
  have hm : MonotoneOn f (Set.Ici 0) := by
    refine monotoneOn_of_deriv_nonneg (convex_Ici 0) (fun y _ => (hd y).continuousAt.continuousWithinAt) (fun y _ => (hd y).differentiableAt.differentiableWithinAt) ?_
    intro y hy
    rw [(hd y).deriv]
    rw [interior_Ici] at hy
    exact hp y (le_of_lt hy)
  have := hm (Set.mem_Ici.mpr le_rfl) (Set.mem_Ici.mpr hx) hx
  rwa [h0] at this

theorem sin_ge_cube (x : ℝ) (hx : 0 ≤ x) : x - x ^ 3 / 6 ≤ sin x := by
  have := nonneg_of_deriv (f := fun x => sin x - (x - x ^ 3 / 6)) (f' := fun x => cos x - (1 - x ^ 2 / 2)) ?_ (by simp) ?_ x hx
  · linarith
  · intro x
    have h := ((hasDerivAt_sin x).sub ((hasDerivAt_id x).sub ((hasDerivAt_pow 3 x).div_const 6)))
    refine h.congr_deriv ?_
    norm_num; ring
  · intro x _
    have := one_sub_sq_div_two_le_cos (x := x)
    linarith

theorem cos_le_four (x : ℝ) (hx : 0 ≤ x) : cos x ≤ 1 - x ^ 2 / 2 + x ^ 4 / 24 := by
  have := nonneg_of_deriv (f := fun x => 1 - x ^ 2 / 2 + x ^ 4 / 24 - cos x) (f' := fun x => sin x - (x - x ^ 3 / 6)) ?_ (by simp) ?_ x hx
  · linarith
  · intro x
    have h := ((((hasDerivAt_const x (1 : ℝ)).sub ((hasDerivAt_pow 2 x).div_const 2)).add ((hasDerivAt_pow 4 x).div_const 24)).sub (hasDerivAt_cos x))
    refine h.congr_deriv ?_
    norm_num; ring
  · intro x hx
    have := sin_ge_cube x hx
    linarith

theorem sin_le_five (x : ℝ) (hx : 0 ≤ x) : sin x ≤ x - x ^ 3 / 6 + x ^ 5 / 120 := by
  have := nonneg_of_deriv (f := fun x => x - x ^ 3 / 6 + x ^ 5 / 120 - sin x) (f' := fun x => 1 - x ^ 2 / 2 + x ^ 4 / 24 - cos x) ?_ (by simp) ?_ x hx
  · linarith
  · intro x
    have h := ((((hasDerivAt_id x).sub ((hasDerivAt_pow 3 x).div_const 6)).add ((hasDerivAt_pow 5 x).div_const 120)).sub (hasDerivAt_sin x))
    refine h.congr_deriv ?_
    norm_num; ring
  · intro x hx
    have := cos_le_four x hx
    linarith

theorem cos_ge_six (x : ℝ) (hx : 0 ≤ x) : 1 - x ^ 2 / 2 + x ^ 4 / 24 - x ^ 6 / 720 ≤ cos x := by
  have := nonneg_of_deriv (f := fun x => cos x - (1 - x ^ 2 / 2 + x ^ 4 / 24 - x ^ 6 / 720)) (f' := fun x => x - x ^ 3 / 6 + x ^ 5 / 120 - sin x) ?_ (by simp) ?_ x hx
  · linarith
  · intro x
    have h := ((hasDerivAt_cos x).sub ((((hasDerivAt_const x (1 : ℝ)).sub ((hasDerivAt_pow 2 x).div_const 2)).add ((hasDerivAt_pow 4 x).div_const 24)).sub ((hasDerivAt_pow 6 x).div_const 720)))
    refine h.congr_deriv ?_
    norm_num; ring
  · intro x hx
    have := sin_le_five x hx
    linarith

theorem sin_sub_cos_ge (x : ℝ) (hx : 0 ≤ x) : x ^ 3 / 3 - x ^ 5 / 30 ≤ sin x - x * cos x := by
  have := nonneg_of_deriv (f := fun x => sin x - x * cos x - (x ^ 3 / 3 - x ^ 5 / 30)) (f' := fun x => x * (sin x - (x - x ^ 3 / 6))) ?_ (by simp) ?_ x hx
  · linarith
  · intro x
    have h := (((hasDerivAt_sin x).sub ((hasDerivAt_id x).mul (hasDerivAt_cos x))).sub (((hasDerivAt_pow 3 x).div_const 3).sub ((hasDerivAt_pow 5 x).div_const 30)))
    refine h.congr_deriv ?_
    simp only [id]; norm_num; ring
  · intro x hx
    have := sin_ge_cube x hx
    exact mul_nonneg hx (by linarith)

/-- The quantity `f f'' / f'²` on the right of the solution. -/
theorem right_t {e E : ℝ} (hE : 0 < E) (hs : 0 < sin E) (h : E ^ 2 ≤ 3) : (E - e * sin E) * (e * sin E) ≤ 3 / 4 * (1 - e * cos E) ^ 2 := by
  have h1 := sin_ge_cube E hE.le
  have h2 := cos_le_four E hE.le
  have h3 : 0 ≤ sin E * (3 - E ^ 2) - 3 * (E * cos E) := by
    have a1 := mul_le_mul_of_nonneg_right h1 (by linarith : 0 ≤ 3 - E ^ 2)
    have a2 := mul_le_mul_of_nonneg_left h2 hE.le
    have a3 : 0 ≤ E ^ 5 := by positivity
    linarith
  have h4 : 0 < 3 / 4 * cos E ^ 2 + sin E ^ 2 := by positivity
  have h5 : 0 ≤ sin E * (sin E * (3 - E ^ 2) - 3 * (E * cos E)) := mul_nonneg hs.le h3
  have h6 : 0 ≤ 4 * (3 / 4 * cos E ^ 2 + sin E ^ 2) * (3 / 4 * (1 - e * cos E) ^ 2 - (E - e * sin E) * (e * sin E)) := by
    have : 4 * (3 / 4 * cos E ^ 2 + sin E ^ 2) * (3 / 4 * (1 - e * cos E) ^ 2 - (E - e * sin E) * (e * sin E)) =
        (2 * (3 / 4 * cos E ^ 2 + sin E ^ 2) * e - (3 / 2 * cos E + E * sin E)) ^ 2 + sin E * (sin E * (3 - E ^ 2) - 3 * (E * cos E)) := by ring
    rw [this]
    positivity
  have := nonneg_of_mul_nonneg_right h6 (by positivity)
  linarith

/-- The sine and the cosine, scaled. -/
theorem scaled_trig {E z S C : ℝ} (hE : 0 < E) (hz : z = E ^ 2) (hS : S = sin E / E) (hC : C = (1 - cos E) / z) :
    (1 - z * (1 / 6) ≤ S ∧ S ≤ 1 - z * (1 / 6) + z * z * (1 / 120)) ∧ 1 / 2 - z * (1 / 24) ≤ C ∧ C ≤ 1 / 2 - z * (1 / 24) + z * z * (1 / 720) := by
  have h1 := sin_ge_cube E hE.le
  have h2 := cos_le_four E hE.le
  have h3 := sin_le_five E hE.le
  have h4 := cos_ge_six E hE.le
  subst hz hS hC
  refine ⟨⟨?_, ?_⟩, ?_, ?_⟩
  · rw [le_div_iff₀ hE]; linarith
  · rw [div_le_iff₀ hE]; linarith
  · rw [le_div_iff₀ (by positivity)]; linarith
  · rw [div_le_iff₀ (by positivity)]; linarith

/-- On the right of the solution: close to it, or a step that the subdivision covers. -/
theorem right_cases {e E f p q r : ℝ} (he : 3 / 5 ≤ e) (he1 : e < 1) (hE : 0 < E) (hE2 : E ^ 2 ≤ 26 / 25) (hp : p = 1 - e * cos E) (hq : q = e * sin E) (hr : r = e * cos E) (hf : 0 < f) (hM : f ≤ E - q) (p0 : 0 < p) (q0 : 0 < q) :
    100 * f ^ 2 ≤ 9 * p ^ 3 ∨
      (0 ≤ f * q / p ^ 2 ∧ f * q / p ^ 2 ≤ 3 / 4 ∧ EndOk (E ^ 2) ((1 - e) / E ^ 2) e (p / E ^ 2) (q / E) (f / (p * E)) (2 / 3 * (r * p / q ^ 2)) (f * q / p ^ 2 / (2 - f * q / p ^ 2))
        (1 - f * q / p ^ 2 / (2 - f * q / p ^ 2) + 2 / 3 * (r * p / q ^ 2) * (f * q / p ^ 2 / (2 - f * q / p ^ 2)) ^ 2)) := by
  have e0 : 0 < e := by linarith
  have hs : 0 < sin E := by rw [hq] at q0; exact (mul_pos_iff_of_pos_left e0).mp q0
  obtain ⟨t, ht⟩ : ∃ t, t = f * q / p ^ 2 := ⟨_, rfl⟩
  have t0 : 0 ≤ t := by rw [ht]; positivity
  have t1 : t ≤ 3 / 4 := by
    rw [ht, div_le_iff₀ (by positivity), hp]
    refine le_trans ?_ (right_t (e := e) hE hs (by linarith))
    rw [← hq]
    exact mul_le_mul_of_nonneg_right hM q0.le
  rw [← ht]
  obtain ⟨z, hz⟩ : ∃ z, z = E ^ 2 := ⟨_, rfl⟩
  have z0 : 0 < z := by rw [hz]; positivity
  rw [← hz] at hE2 ⊢
  obtain ⟨x, hx⟩ : ∃ x, x = (1 - e) / z := ⟨_, rfl⟩
  have x0 : 0 ≤ x := by rw [hx]; exact div_nonneg (by linarith) z0.le
  have hxz : x * z = 1 - e := by rw [hx]; field_simp
  obtain ⟨S, hS⟩ : ∃ S, S = sin E / E := ⟨_, rfl⟩
  obtain ⟨C, hC⟩ : ∃ C, C = (1 - cos E) / z := ⟨_, rfl⟩
  obtain ⟨⟨a1, a2⟩, a3, a4⟩ := scaled_trig hE hz hS hC
  have hCz : C * z = 1 - cos E := by rw [hC]; field_simp
  have hPx : p / z = x + e * C := by
    rw [div_eq_iff z0.ne']
    linear_combination hp - hxz - e * hCz
  rcases le_or_gt x 12 with hx12 | hx12
  · obtain ⟨s, hsd⟩ : ∃ s, s = t / (2 - t) := ⟨_, rfl⟩
    have h2t : 0 < 2 - t := by linarith
    have s0 : 0 ≤ s := by rw [hsd]; exact div_nonneg t0 h2t.le
    have s1 : s ≤ 3 / 5 := by rw [hsd, div_le_iff₀ h2t]; linarith
    have hsm : s * (2 - t) = t := by rw [hsd]; field_simp
    have ht' : 2 - (1 / (1 + s) + 1 / (1 + s)) = t := by
      have : 0 < 1 + s := by linarith
      field_simp
      linear_combination hsm
    rw [← hsd, ← hx]
    obtain ⟨Z', X', T', hb, mz, mx, ms, hT⟩ := coverOk_box rightCut rightCut_ok (z := z) (x := x) (s := s) ⟨by push_cast; linarith, by push_cast; linarith⟩ ⟨by push_cast; linarith, by push_cast; linarith⟩
      ⟨by push_cast; linarith, by push_cast; linarith⟩ (by norm_num) (by norm_num)
    have hd1 : f / (p * E) = t * (p / z * (1 / (q / E))) := by
      rw [ht, hz]; field_simp
    have hG : f / (p * E) ≤ 1 - e * (1 / 3 - z * (1 / 30)) * (1 / (p / z)) := by
      have h1 := sin_sub_cos_ge E hE.le
      have h2 : f ≤ E * p - e * (E ^ 3 / 3 - E ^ 5 / 30) := by
        have := mul_le_mul_of_nonneg_left h1 e0.le
        rw [hp]
        rw [hq] at hM
        linarith
      rw [div_le_iff₀ (by positivity)]
      refine h2.trans (le_of_eq ?_)
      rw [hz]; field_simp
    obtain ⟨-, h⟩ := boxOk_sound hb mz mx ms hT a1 a2 a3 a4 (e := e) (P := p / z) (Q := q / E) (r := r) (d1 := f / (p * E)) (k := 2 / 3 * (r * p / q ^ 2)) (by linarith) he he1.le hPx
      (by rw [hq, hS]; ring) (by rw [hr]; linear_combination e * hCz) (by rw [ht', hd1]) (by rw [hz]; field_simp) hG (by positivity)
    rcases h with h | h
    · left
      have h2 : 100 * (f / (p * E)) ^ 2 * (p ^ 2 * z) ≤ 9 * (p / z) * (p ^ 2 * z) := mul_le_mul_of_nonneg_right h (by positivity)
      have e1 : 100 * (f / (p * E)) ^ 2 * (p ^ 2 * z) = 100 * f ^ 2 := by rw [hz]; field_simp
      have e2 : 9 * (p / z) * (p ^ 2 * z) = 9 * p ^ 3 := by field_simp
      rwa [e1, e2] at h2
    · exact .inr ⟨t0, t1, h⟩
  · left
    have h1 := sin_ge_cube E hE.le
    have hf2 : f ≤ E * (z * (x + 1 / 6)) := by
      have : e * (E - E ^ 3 / 6) ≤ q := by rw [hq]; exact mul_le_mul_of_nonneg_left h1 e0.le
      have h3 : E ^ 3 = E * z := by rw [hz]; ring
      have h4 : e * (E * z) ≤ 1 * (E * z) := by gcongr
      rw [h3] at this
      have h5 : E * (z * (x + 1 / 6)) = E * (1 - e) + E * z / 6 := by rw [← hxz]; ring
      rw [h5]
      linarith
    have hp2 : x * z ≤ p := by
      have : e * cos E ≤ e * 1 := mul_le_mul_of_nonneg_left (cos_le_one E) e0.le
      rw [hp]; linarith
    have h6 : f ^ 2 ≤ (E * (z * (x + 1 / 6))) ^ 2 := by gcongr
    have h7 : (x * z) ^ 3 ≤ p ^ 3 := by gcongr
    have h8 : (E * (z * (x + 1 / 6))) ^ 2 = z ^ 3 * (x + 1 / 6) ^ 2 := by rw [hz]; ring
    have h9 : 100 * (x + 1 / 6) ^ 2 ≤ 9 * x ^ 3 := by nlinarith [mul_pos (by linarith : 0 < x) (by linarith : 0 < x - 12)]
    have h10 := mul_le_mul_of_nonneg_left h9 (by positivity : 0 ≤ z ^ 3)
    nlinarith

/-- The residual after the step, relative to the residual before, as `EndOk` states it. -/
theorem right_ratio {E f p q r t s k d B d2 d3 R : ℝ} (hE : 0 < E) (p0 : 0 < p) (q0 : 0 < q) (f0 : 0 < f) (ht : t = f * q / p ^ 2) (t2 : t < 2) (hs : s = t / (2 - t)) (hk : k = 2 / 3 * (r * p / q ^ 2)) (hd : d = f / (p * E))
    (hB : B = 1 - s + k * s ^ 2) (B0 : 0 < B) (hd2 : d2 = -(f / p * (1 + s))) (hd3 : d3 = -(f / p * (1 / B))) (hR : |R| ≤ q * (d3 ^ 4 / 24)) :
    f * (rG s k B - rRho (E ^ 2) (q / E) d (p / E ^ 2) B) ≤ d3 * ((d3 - d2) * (q / 2 + r * (d3 + d2) / 6)) - R ∧ d3 * ((d3 - d2) * (q / 2 + r * (d3 + d2) / 6)) - R ≤ f * (rG s k B + rRho (E ^ 2) (q / E) d (p / E ^ 2) B) := by
  have h2 : 0 < 2 - t := by linarith
  have t0 : 0 < t := by rw [ht]; positivity
  have s0 : 0 < s := by rw [hs]; positivity
  have hst : t = 2 * s / (1 + s) := by
    rw [hs]; field_simp; ring
  have hmain : d3 * ((d3 - d2) * (q / 2 + r * (d3 + d2) / 6)) = f * rG s k B := by
    have hq : q = t * p ^ 2 / f := by rw [ht]; field_simp
    have hr : r = 3 / 2 * k * q ^ 2 / p := by rw [hk]; field_simp
    rw [hr, hq, hst, hd2, hd3]
    have hB' : 1 / B - (1 + s) = s ^ 2 * (1 + s) * (1 / (1 + s) - k) * (1 / B) := by
      field_simp
      rw [hB]; ring
    have e1 : -(f / p * (1 / B)) - -(f / p * (1 + s)) = -(f / p) * (1 / B - (1 + s)) := by ring
    rw [e1, hB']
    unfold rG
    field_simp
    ring
  have hrho : q * (d3 ^ 4 / 24) = f * rRho (E ^ 2) (q / E) d (p / E ^ 2) B := by
    rw [hd3, hd]
    unfold rRho
    field_simp
  rw [hmain]
  rw [hrho] at hR
  have := abs_le.mp hR
  constructor <;> linarith

/-- The denominators of the correction. -/
theorem right_den {f p q r t s k B : ℝ} (p0 : 0 < p) (q0 : 0 < q) (ht : t = f * q / p ^ 2) (hsd : s = t / (2 - t)) (hk : k = 2 / 3 * (r * p / q ^ 2)) (hB : B = 1 - s + k * s ^ 2) (h2 : 0 < 2 - t) (s0 : 0 ≤ s) :
    den1 f p q = p * (1 / (1 + s)) ∧ den2 f p q r = p * B := by
  have hA : 1 + s = 2 / (2 - t) := by rw [hsd]; field_simp; ring
  have hD1 : den1 f p q = p * (1 / (1 + s)) := by
    rw [den1_eq, hA, ht]
    field_simp
  refine ⟨hD1, ?_⟩
  have hD2 : den2 f p q r = p * B := by
    have h3 : f * q = t * p ^ 2 := by rw [ht]; field_simp
    have h4 : f ^ 2 * r = 3 / 2 * k * t ^ 2 * p ^ 3 := by rw [ht, hk]; field_simp
    have h5 : t = 2 * s / (1 + s) := by rw [hsd]; field_simp; ring
    rw [den2_eq, hD1, div_pow]
    have : f * q / (2 * (p * (1 / (1 + s)))) = p * s := by
      rw [h3, h5]; field_simp
    rw [this]
    have : f ^ 2 / (p * (1 / (1 + s))) ^ 2 * r / 6 = p * (k * s ^ 2) := by
      have : f ^ 2 / (p * (1 / (1 + s))) ^ 2 * r / 6 = f ^ 2 * r * ((1 + s) ^ 2 / (6 * p ^ 2)) := by field_simp
      rw [this, h4, h5]; field_simp; ring
    rw [this, hB]; ring
  exact hD2

/-- The sine on a symmetric interval. -/
theorem abs_sin_inside {E ξ : ℝ} (hξ2 : |ξ| ≤ E) (hE : E ≤ 3 / 2) : |sin ξ| ≤ sin E := by
  have hpi := pi_gt_three
  have : |sin ξ| = sin |ξ| := by
    rcases le_total 0 ξ with h | h
    · rw [abs_of_nonneg h]
      rw [abs_of_nonneg h] at hξ2
      exact abs_of_nonneg (sin_nonneg_of_nonneg_of_le_pi h (by linarith))
    · rw [abs_of_nonpos h, sin_neg]
      rw [abs_of_nonpos h] at hξ2
      exact abs_of_nonpos (sin_nonpos_of_nonpos_of_neg_pi_le h (by linarith))
  rw [this]
  exact sin_le_sin_of_le_of_le_pi_div_two (by linarith [abs_nonneg ξ]) (by linarith) hξ2

/-- A step over the solution. -/
theorem right_left {e E f f' p d d3 B : ℝ} (e0 : 0 < e) (hE : 0 < E) (p0 : 0 < p) (h0 : 0 < f) (hE' : E + d3 = E * (1 - d * (1 / B))) (hd : d = f / (p * E)) (hP1 : 0 < rP1 (E ^ 2) ((1 - e) / E ^ 2) e d B)
    (h3 : 100 * (f' / f * d * (p / E ^ 2)) ^ 2 ≤ 9 * rP1 (E ^ 2) ((1 - e) / E ^ 2) e d B ^ 3) : 100 * f' ^ 2 ≤ 9 * (1 - e * cos (E + d3)) ^ 3 := by
  have h4 : E ^ 2 * rP1 (E ^ 2) ((1 - e) / E ^ 2) e d B ≤ 1 - e * cos (E + d3) := by
    have h5 : cos (E + d3) ≤ 1 - (E + d3) ^ 2 / 2 + (E + d3) ^ 4 / 24 := by
      have := cos_le_four |E + d3| (abs_nonneg _)
      rwa [cos_abs, sq_abs, (by norm_num : 4 = 2 * 2), pow_mul, sq_abs, ← pow_mul] at this
    have h6 := mul_le_mul_of_nonneg_left h5 e0.le
    refine le_trans (le_of_eq ?_) (sub_le_sub_left h6 1)
    rw [hE']
    unfold rP1
    field_simp
    ring
  have h7 : (E ^ 2 * rP1 (E ^ 2) ((1 - e) / E ^ 2) e d B) ^ 3 ≤ (1 - e * cos (E + d3)) ^ 3 := by gcongr
  have h8 : f' ^ 2 = (E ^ 2) ^ 3 * (f' / f * d * (p / E ^ 2)) ^ 2 := by rw [hd]; field_simp
  rw [mul_pow] at h7
  have h9 := mul_le_mul_of_nonneg_left h3 (by positivity : 0 ≤ (E ^ 2) ^ 3)
  rw [h8]
  linarith

/-- On the right of the solution, with the distance that the subdivision covers. -/
def Right (M e E : ℝ) : Prop := 0 < E ∧ E ^ 2 ≤ 26 / 25 ∧ 0 ≤ keplerFi M e E

/-- What the step of `danby_right` leads to. -/
theorem right_next {M e E f p q r t s k d B d2 d3 ξ : ℝ} (e0 : 0 < e) (he1 : e < 1) (hE : 0 < E) (hE2 : E ^ 2 ≤ 26 / 25) (hM : 0 ≤ M) (hq : q = e * sin E) (p0 : 0 < p) (q0 : 0 < q) (h0 : 0 < f) (ht : t = f * q / p ^ 2) (t2 : t < 2)
    (hsd : s = t / (2 - t)) (hk : k = 2 / 3 * (r * p / q ^ 2)) (hd : d = f / (p * E)) (hB : B = 1 - s + k * s ^ 2) (hd2 : d2 = -(f / p * (1 + s))) (hd3 : d3 = -(f / p * (1 / B)))
    (h : EndOk (E ^ 2) ((1 - e) / E ^ 2) e (p / E ^ 2) (q / E) d k s B) (hξ : ξ ∈ Set.uIcc E (E + d3)) (k2 : keplerFi M e (E + d3) = d3 * ((d3 - d2) * (q / 2 + r * (d3 + d2) / 6)) - e * (sin ξ * (d3 ^ 4 / 24))) :
    (Close M e (E + d3) ∨ Right M e (E + d3)) ∧ |keplerFi M e (E + d3)| ≤ f / 3 := by
  obtain ⟨B0, hd1, hup, hlow⟩ := h
  have d0 : 0 < d := by rw [hd]; positivity
  have hE1 : E ≤ 51 / 50 := by nlinarith
  have hE' : E + d3 = E * (1 - d * (1 / B)) := by rw [hd3, hd]; field_simp; ring
  have hdE : E + d3 ≤ E := by
    have : 0 ≤ f / p * (1 / B) := by positivity
    linarith
  have hξ1 : |sin ξ| ≤ sin E := by
    have hξ2 : |ξ| ≤ E := by
      rw [hE'] at hξ
      rw [hE'] at hdE
      rw [Set.uIcc_of_ge hdE] at hξ
      rw [abs_le]
      refine ⟨le_trans ?_ hξ.1, hξ.2⟩
      have := mul_le_mul_of_nonneg_left hd1 hE.le
      linarith
    exact abs_sin_inside hξ2 (by linarith)
  have hR : |e * (sin ξ * (d3 ^ 4 / 24))| ≤ q * (d3 ^ 4 / 24) := by
    rw [abs_mul, abs_mul, abs_of_pos e0, abs_of_nonneg (by positivity : 0 ≤ d3 ^ 4 / 24), hq, mul_assoc]
    gcongr
  obtain ⟨b1, b2⟩ := right_ratio hE p0 q0 h0 ht (by linarith) hsd hk hd hB B0 hd2 hd3 hR
  rw [← k2] at b1 b2
  obtain ⟨f', hf'⟩ : ∃ f', f' = keplerFi M e (E + d3) := ⟨_, rfl⟩
  rw [← hf'] at b1 b2
  have u1 : f' ≤ f / 3 := by
    have := mul_le_mul_of_nonneg_left hup h0.le
    linarith
  have l1 : -(f / 3) ≤ f' := by
    rcases hlow with h | ⟨h, -, -⟩
    · have := mul_nonneg h0.le h
      linarith
    · have := mul_le_mul_of_nonneg_left h h0.le
      linarith
  refine ⟨?_, ?_⟩
  · rcases le_or_gt 0 f' with hpos | hneg
    · rcases lt_or_ge 0 (E + d3) with hE3 | hE3
      · right
        refine ⟨hE3, ?_, by rw [← hf']; exact hpos⟩
        have : (E + d3) ^ 2 ≤ E ^ 2 := pow_le_pow_left₀ hE3.le hdE 2
        exact this.trans hE2
      · left
        have h3 : f' = E + d3 - e * sin (E + d3) - M := hf'
        have h4 : sin (-(E + d3)) ≤ -(E + d3) := sin_le (by linarith)
        rw [sin_neg] at h4
        have h5 : f' = 0 := by
          have h7 : e * (-sin (E + d3)) ≤ e * -(E + d3) := mul_le_mul_of_nonneg_left h4 e0.le
          have h8 : e * -(E + d3) ≤ 1 * -(E + d3) := mul_le_mul_of_nonneg_right he1.le (by linarith)
          linarith
        unfold Close
        rw [← hf', h5]
        have h9 := mul_le_mul_of_nonneg_left (cos_le_one (E + d3)) e0.le
        have : 0 ≤ 1 - e * cos (E + d3) := by linarith
        have : 0 ≤ (1 - e * cos (E + d3)) ^ 3 := by positivity
        linarith
    · left
      rcases hlow with h | ⟨-, hP1, hw⟩
      · have := mul_nonneg h0.le h
        linarith
      · have h3 := hw (f' / f) (div_nonpos_of_nonpos_of_nonneg hneg.le h0.le) (by rw [le_div_iff₀ h0]; linarith)
        unfold Close
        rw [← hf']
        exact right_left e0 hE p0 h0 hE' hd hP1 h3
  · rw [← hf', abs_le]
    exact ⟨l1, u1⟩

/-- A correction on the right of the solution. -/
theorem danby_right (M e E : ℝ) (he : 3 / 5 ≤ e) (he1 : e < 1) (hM : 0 ≤ M) (h : Right M e E) :
    Close M e E ∨ ∃ E', danby M e E = some E' ∧ (Close M e E' ∨ Right M e E') ∧ |keplerFi M e E'| ≤ |keplerFi M e E| / 3 := by
  obtain ⟨hE, hE2, hf⟩ := h
  have e0 : 0 < e := by linarith
  have hE1 : E ≤ 51 / 50 := by nlinarith
  have hpi := pi_gt_three
  have hs : 0 < sin E := sin_pos_of_pos_of_lt_pi hE (by linarith)
  obtain ⟨f, hfd⟩ : ∃ f, f = keplerFi M e E := ⟨_, rfl⟩
  obtain ⟨p, hp⟩ : ∃ p, p = 1 - e * cos E := ⟨_, rfl⟩
  obtain ⟨q, hq⟩ : ∃ q, q = e * sin E := ⟨_, rfl⟩
  obtain ⟨r, hr⟩ : ∃ r, r = e * cos E := ⟨_, rfl⟩
  have p0 : 0 < p := by rw [hp]; nlinarith [cos_le_one E]
  have q0 : 0 < q := by rw [hq]; positivity
  rcases eq_or_lt_of_le hf with h0 | h0
  · left
    unfold Close
    rw [← h0, ← hp]
    have : 0 < p ^ 3 := by positivity
    linarith
  rw [← hfd] at h0
  have hfM : f = E - q - M := by rw [hfd, hq]; rfl
  rcases right_cases he he1 hE hE2 hp hq hr h0 (by linarith) p0 q0 with h | ⟨t0, t1, h⟩
  · left; unfold Close; rw [← hfd, ← hp]; exact h
  right
  obtain ⟨t, ht⟩ : ∃ t, t = f * q / p ^ 2 := ⟨_, rfl⟩
  rw [← ht] at t0 t1 h
  obtain ⟨s, hsd⟩ : ∃ s, s = t / (2 - t) := ⟨_, rfl⟩
  obtain ⟨k, hk⟩ : ∃ k, k = 2 / 3 * (r * p / q ^ 2) := ⟨_, rfl⟩
  obtain ⟨d, hd⟩ : ∃ d, d = f / (p * E) := ⟨_, rfl⟩
  rw [← hsd, ← hk, ← hd] at h
  obtain ⟨B, hB⟩ : ∃ B, B = 1 - s + k * s ^ 2 := ⟨_, rfl⟩
  rw [← hB] at h
  have B0 := h.1
  have h2 : 0 < 2 - t := by linarith
  have s0 : 0 ≤ s := by rw [hsd]; exact div_nonneg t0 h2.le
  obtain ⟨hD1, hD2⟩ := right_den p0 q0 ht hsd hk hB h2 s0
  obtain ⟨d2, hd2⟩ : ∃ d2, d2 = -(f / p * (1 + s)) := ⟨_, rfl⟩
  obtain ⟨d3, hd3⟩ : ∃ d3, d3 = -(f / p * (1 / B)) := ⟨_, rfl⟩
  obtain ⟨k1, ξ, hξ, k2⟩ := danby_key M e E d2 d3 (by rw [← hp]; exact p0) (by rw [← hfd, ← hp, ← hq, hD1]; positivity) (by rw [← hfd, ← hp, ← hq, ← hr, hD2]; positivity)
    (by rw [← hfd, ← hp, ← hq, hD1, hd2]; field_simp) (by rw [← hfd, ← hp, ← hq, ← hr, hD2, hd3]; field_simp)
  rw [← hq, ← hr] at k2
  obtain ⟨n1, n2⟩ := right_next e0 he1 hE hE2 hM hq p0 q0 h0 ht (by linarith) hsd hk hd hB hd2 hd3 h hξ k2
  exact ⟨_, k1, n1, by rw [← hfd, abs_of_pos h0]; exact n2⟩

end Radvel
