import Verif.Lemmas.KeplerEnd

/-! # Lemmas for C167: one correction, for all eccentricities below 1 -/

namespace Radvel
open Real

/-- The sine to third order, with the remainder in the form of Lagrange. -/
theorem sin_lagrange (E d : ℝ) : ∃ ξ ∈ Set.uIcc E (E + d), sin (E + d) - (sin E + cos E * d - sin E * d ^ 2 / 2 - cos E * d ^ 3 / 6) = sin ξ * (d ^ 4 / 24) := by
  rcases eq_or_ne d 0 with rfl | hd
  · exact ⟨E, Set.left_mem_uIcc, by simp⟩
  · have hx : (0 : ℝ) ≠ d := hd.symm
    obtain ⟨x, hx1, hx2⟩ := taylor_mean_remainder_lagrange_iteratedDeriv (f := fun y => sin (E + y)) (n := 3) hx (by fun_prop)
    have hi : ∀ n, iteratedDeriv n (fun y => sin (E + y)) = fun y => iteratedDeriv n sin (E + y) := by
      intro n
      exact iteratedDeriv_comp_const_add n sin E
    have hw : ∀ n, iteratedDerivWithin n (fun y => sin (E + y)) (Set.uIcc 0 d) 0 = iteratedDeriv n sin E := by
      intro n
      rw [iteratedDerivWithin_eq_iteratedDeriv (uniqueDiffOn_uIcc hx) (by fun_prop) Set.left_mem_uIcc, hi]
      simp
    simp only [taylorWithinEval_succ, taylor_within_zero_eval, hw, hi] at hx2
    have e1 : iteratedDeriv 1 sin = cos := by rw [iteratedDeriv_one]; simp
    have e2 : iteratedDeriv 2 sin = fun x => - sin x := by rw [iteratedDeriv_succ, e1]; simp
    have e3 : iteratedDeriv 3 sin = fun x => - cos x := by rw [iteratedDeriv_succ, e2]; ext x; simp
    norm_num [e1, e2, e3, Nat.factorial] at hx2
    refine ⟨E + x, ?_, by linear_combination hx2⟩
    have := Set.uIoo_subset_uIcc_self hx1
    rw [Set.mem_uIcc] at this ⊢
    rcases this with h | h
    · left; constructor <;> linarith [h.1, h.2]
    · right; constructor <;> linarith [h.1, h.2]

/-- The cosine to first order. -/
theorem cos_le_taylor (E d : ℝ) : cos (E + d) ≤ cos E - sin E * d + d ^ 2 / 2 := by
  rcases eq_or_ne d 0 with rfl | hd
  · simp
  · have hx : (0 : ℝ) ≠ d := hd.symm
    obtain ⟨x, -, hx2⟩ := taylor_mean_remainder_lagrange_iteratedDeriv (f := fun y => cos (E + y)) (n := 1) hx (by fun_prop)
    have hi : ∀ n, iteratedDeriv n (fun y => cos (E + y)) = fun y => iteratedDeriv n cos (E + y) := by
      intro n
      exact iteratedDeriv_comp_const_add n cos E
    have hw : ∀ n, iteratedDerivWithin n (fun y => cos (E + y)) (Set.uIcc 0 d) 0 = iteratedDeriv n cos E := by
      intro n
      rw [iteratedDerivWithin_eq_iteratedDeriv (uniqueDiffOn_uIcc hx) (by fun_prop) Set.left_mem_uIcc, hi]
      simp
    simp only [taylorWithinEval_succ, taylor_within_zero_eval, hw, hi] at hx2
    have e1 : iteratedDeriv 1 cos = fun x => - sin x := by rw [iteratedDeriv_one]; ext x; simp
    have e2 : iteratedDeriv 2 cos = fun x => - cos x := by rw [iteratedDeriv_succ, e1]; ext x; simp
    norm_num [e1, e2, Nat.factorial] at hx2
    nlinarith [neg_one_le_cos (E + x), sq_nonneg d]

/-- The residual after a correction. -/
theorem danby_key (M e E d2 d3 : ℝ) (hp : 0 < 1 - e * cos E) (h1 : 0 < den1 (keplerFi M e E) (1 - e * cos E) (e * sin E)) (h2 : 0 < den2 (keplerFi M e E) (1 - e * cos E) (e * sin E) (e * cos E))
    (hd2 : d2 = -keplerFi M e E / den1 (keplerFi M e E) (1 - e * cos E) (e * sin E)) (hd3 : d3 = -keplerFi M e E / den2 (keplerFi M e E) (1 - e * cos E) (e * sin E) (e * cos E)) :
    danby M e E = some (E + d3) ∧ ∃ ξ ∈ Set.uIcc E (E + d3), keplerFi M e (E + d3) = d3 * ((d3 - d2) * (e * sin E / 2 + e * cos E * (d3 + d2) / 6)) - e * (sin ξ * (d3 ^ 4 / 24)) := by
  refine ⟨by rw [hd3]; exact danby_eq M e E hp h1 h2, ?_⟩
  obtain ⟨ξ, hξ, hs⟩ := sin_lagrange E d3
  refine ⟨ξ, hξ, ?_⟩
  have m3 : d3 * den2 (keplerFi M e E) (1 - e * cos E) (e * sin E) (e * cos E) = -keplerFi M e E := by rw [hd3]; field_simp
  have hD2 : den2 (keplerFi M e E) (1 - e * cos E) (e * sin E) (e * cos E) = 1 - e * cos E + d2 * (e * sin E) / 2 + d2 * d2 * (e * cos E) / 6 := by rw [hd2]; rfl
  rw [← hs]
  have h0 : E - e * sin E - M = -(d3 * (1 - e * cos E + d2 * (e * sin E) / 2 + d2 * d2 * (e * cos E) / 6)) := by rw [← hD2, m3]; unfold keplerFi; ring
  unfold keplerFi
  linear_combination h0

/-- Close to the solution, in the sense in which corrections converge for every eccentricity below 1. -/
def Close (M e E : ℝ) : Prop := 100 * keplerFi M e E ^ 2 ≤ 9 * (1 - e * cos E) ^ 3

/-- The estimates behind `danby_near`. -/
theorem near_bounds {y h r A B : ℝ} (hy : |y| ≤ 3 / 10) (hh : |h| ≤ 14143 / 10000) (hr : |r| ≤ 1) (hA : A = 1 - y * h / 2) (hB : B = 1 - y * h / (2 * A) + y ^ 2 * r / (6 * A ^ 2)) :
    787 / 1000 ≤ A ∧ 705 / 1000 ≤ B ∧ |1 / B * (1 / B - 1 / A) * (y * h / 2 - r * y ^ 2 * (1 / A + 1 / B) / 6)| ≤ 54 / 1000 := by
  have hT : |y * h| ≤ 4243 / 10000 := by
    rw [abs_mul]
    have := mul_le_mul hy hh (abs_nonneg h) (by norm_num)
    linarith
  have hW : |r * y ^ 2| ≤ 9 / 100 := by
    rw [abs_mul, abs_pow]
    have := mul_le_mul hr (pow_le_pow_left₀ (abs_nonneg y) hy 2) (by positivity) (by norm_num)
    linarith
  obtain ⟨T, hTd⟩ : ∃ T, T = y * h := ⟨_, rfl⟩
  obtain ⟨W, hWd⟩ : ∃ W, W = r * y ^ 2 := ⟨_, rfl⟩
  have hB' : B = 1 - T / (2 * A) + W / (6 * A ^ 2) := by rw [hB, hTd, hWd, mul_comm r]
  rw [← hTd] at hA hT ⊢
  rw [← hWd] at hW ⊢
  clear hB
  have hT' := abs_le.mp hT
  have hW' := abs_le.mp hW
  have hA1 : 787 / 1000 ≤ A := by rw [hA]; linarith
  have hA0 : 0 < A := by linarith
  obtain ⟨a, ha⟩ : ∃ a, a = 1 / A := ⟨_, rfl⟩
  have ha0 : 0 < a := by rw [ha]; positivity
  have ha1 : a ≤ 1271 / 1000 := by rw [ha, div_le_iff₀ hA0]; linarith
  have haA : a * A = 1 := by rw [ha]; field_simp
  have hBa : B = 1 - T * a / 2 + W * a ^ 2 / 6 := by rw [hB', ha]; field_simp
  have ha2 : a ^ 2 ≤ 1616 / 1000 := by nlinarith
  have t1 : |T * a| ≤ 540 / 1000 := by
    rw [abs_mul, abs_of_pos ha0]
    have := mul_le_mul hT ha1 ha0.le (by norm_num)
    linarith
  have w1 : |W * a ^ 2| ≤ 1455 / 10000 := by
    rw [abs_mul, abs_of_pos (by positivity : 0 < a ^ 2)]
    have := mul_le_mul hW ha2 (by positivity) (by norm_num)
    linarith
  have t1' := abs_le.mp t1
  have w1' := abs_le.mp w1
  have hB1 : 705 / 1000 ≤ B := by rw [hBa]; linarith
  have hB0 : 0 < B := by linarith
  obtain ⟨b, hb⟩ : ∃ b, b = 1 / B := ⟨_, rfl⟩
  have hb0 : 0 < b := by rw [hb]; positivity
  have hb1 : b ≤ 1419 / 1000 := by rw [hb, div_le_iff₀ hB0]; linarith
  have hbB : b * B = 1 := by rw [hb]; field_simp
  refine ⟨hA1, hB1, ?_⟩
  rw [← ha, ← hb]
  have hdiff : b - a = b * a * (T ^ 2 * a / 4 - W * a ^ 2 / 6) := by
    have : A - B = T ^ 2 * a / 4 - W * a ^ 2 / 6 := by
      have h1 : A = 1 - T / 2 := hA
      have h2 : T / 2 * (a * A) = T / 2 := by rw [haA]; ring
      rw [h1] at h2
      rw [hBa, h1]
      linear_combination h2
    rw [← this]
    linear_combination a * hbB - b * haA
  have hT2 : T ^ 2 ≤ 1801 / 10000 := by
    rw [← sq_abs]
    nlinarith [abs_nonneg T]
  have e1 : |T ^ 2 * a / 4 - W * a ^ 2 / 6| ≤ 815 / 10000 := by
    have : T ^ 2 * a ≤ 1801 / 10000 * (1271 / 1000) := mul_le_mul hT2 ha1 ha0.le (by norm_num)
    have : 0 ≤ T ^ 2 * a := by positivity
    rw [abs_le]
    constructor <;> linarith
  have e2 : |T / 2 - W * (a + b) / 6| ≤ 253 / 1000 := by
    have : |W * (a + b)| ≤ 9 / 100 * (2690 / 1000) := by
      rw [abs_mul, abs_of_pos (by linarith : 0 < a + b)]
      exact mul_le_mul hW (by linarith) (by linarith) (by norm_num)
    have := abs_le.mp this
    rw [abs_le]
    constructor <;> linarith
  have e3 : b * (b - a) * (T / 2 - W * (a + b) / 6) = b * b * a * (T ^ 2 * a / 4 - W * a ^ 2 / 6) * (T / 2 - W * (a + b) / 6) := by rw [hdiff]; ring
  rw [e3, abs_mul, abs_mul, abs_of_pos (by positivity : 0 < b * b * a)]
  have e4 : b * b * a ≤ 1419 / 1000 * (1419 / 1000) * (1271 / 1000) := by gcongr
  have e5 : b * b * a * |T ^ 2 * a / 4 - W * a ^ 2 / 6| * |T / 2 - W * (a + b) / 6| ≤ 1419 / 1000 * (1419 / 1000) * (1271 / 1000) * (815 / 10000) * (253 / 1000) := by gcongr
  exact e5.trans (by norm_num)

/-- A small residual at the end of a short step is close to the solution. -/
theorem near_close {e E d h' a f f' : ℝ} (he : 0 ≤ e) (he1 : e < 1) (ha0 : 0 < a) (ha2 : a ^ 2 = 1 - e * cos E) (hq : e * sin E = h' * a) (h1 : |h'| ≤ 14143 / 10000) (hd : |d| ≤ 4257 / 10000 * a)
    (h : 100 * f ^ 2 ≤ 9 * (a ^ 2) ^ 3) (hf1 : |f'| ≤ |f| * (605 / 10000)) : 100 * f' ^ 2 ≤ 9 * (1 - e * cos (E + d)) ^ 3 := by
  have hcos := cos_le_taylor E d
  have hqd : -(14143 / 10000 * (4257 / 10000) * a ^ 2) ≤ e * sin E * d := by
    rw [hq]
    have : |h' * d| ≤ 14143 / 10000 * (4257 / 10000 * a) := by
      rw [abs_mul]
      exact mul_le_mul h1 hd (abs_nonneg d) (by norm_num)
    have := mul_le_mul_of_nonneg_right (abs_le.mp this).1 ha0.le
    linarith
  have hd2 : d ^ 2 ≤ (4257 / 10000 * a) ^ 2 := by
    rw [← sq_abs]
    exact pow_le_pow_left₀ (abs_nonneg d) hd 2
  have hpp : 307 / 1000 * a ^ 2 ≤ 1 - e * cos (E + d) := by
    have h2 : e * cos (E + d) ≤ e * (cos E - sin E * d + d ^ 2 / 2) := mul_le_mul_of_nonneg_left hcos he
    have h3 : e * d ^ 2 ≤ 1 * d ^ 2 := by gcongr
    have h4 : 0 < a ^ 2 := by positivity
    have h5 : 1 - e * cos (E + d) ≥ a ^ 2 + e * sin E * d - e * d ^ 2 / 2 := by linarith
    have h6 : d ^ 2 ≤ 1813 / 10000 * a ^ 2 := by linarith
    linarith
  have e1 : f' ^ 2 ≤ (|f| * (605 / 10000)) ^ 2 := by
    rw [← sq_abs]
    exact pow_le_pow_left₀ (abs_nonneg _) hf1 2
  rw [mul_pow, sq_abs] at e1
  have e2 : (307 / 1000 * a ^ 2) ^ 3 ≤ (1 - e * cos (E + d)) ^ 3 := by gcongr
  have : 0 < a ^ 6 := by positivity
  linarith

/-- A correction close to the solution reduces the residual to a tenth and stays close to the solution. -/
theorem danby_near (M e E : ℝ) (he : 0 ≤ e) (he1 : e < 1) (h : Close M e E) : ∃ E', danby M e E = some E' ∧ Close M e E' ∧ |keplerFi M e E'| ≤ |keplerFi M e E| / 10 := by
  have hc := cos_le_one E
  have hc' := neg_one_le_cos E
  have hp : 0 < 1 - e * cos E := by nlinarith
  have hp2 : 1 - e * cos E ≤ 2 := by nlinarith
  obtain ⟨a, ha⟩ : ∃ a, a = √(1 - e * cos E) := ⟨_, rfl⟩
  have ha0 : 0 < a := by rw [ha]; exact sqrt_pos.mpr hp
  have ha2 : a ^ 2 = 1 - e * cos E := by rw [ha]; exact sq_sqrt hp.le
  have ha1 : a ≤ 14143 / 10000 := by nlinarith
  obtain ⟨y, hy⟩ : ∃ y, y = keplerFi M e E / a ^ 3 := ⟨_, rfl⟩
  have hf : keplerFi M e E = y * a ^ 3 := by rw [hy]; field_simp
  obtain ⟨h', hh⟩ : ∃ h', h' = e * sin E / a := ⟨_, rfl⟩
  have hq : e * sin E = h' * a := by rw [hh]; field_simp
  have y1 : |y| ≤ 3 / 10 := by
    unfold Close at h
    rw [hf, ← ha2] at h
    have : y ^ 2 * a ^ 6 ≤ (3 / 10) ^ 2 * a ^ 6 := by nlinarith
    have := le_of_mul_le_mul_right this (by positivity)
    exact abs_le_of_sq_le_sq this (by norm_num)
  have h1 : |h'| ≤ 14143 / 10000 := by
    refine abs_le_of_sq_le_sq ?_ (by norm_num)
    have hs := sin_sq_add_cos_sq E
    have h2 : (h' * a) ^ 2 ≤ 2 * a ^ 2 := by
      rw [← hq, ha2]
      have : (e * sin E) ^ 2 = e ^ 2 - (e * cos E) ^ 2 := by linear_combination e ^ 2 * hs
      rw [this]
      nlinarith [sq_nonneg (1 - e * cos E)]
    have : h' ^ 2 * a ^ 2 ≤ 2 * a ^ 2 := by linarith
    have := le_of_mul_le_mul_right this (by positivity)
    linarith
  have r1 : |e * cos E| ≤ 1 := by rw [abs_le]; constructor <;> nlinarith
  obtain ⟨A, hA⟩ : ∃ A, A = 1 - y * h' / 2 := ⟨_, rfl⟩
  obtain ⟨B, hB⟩ : ∃ B, B = 1 - y * h' / (2 * A) + y ^ 2 * (e * cos E) / (6 * A ^ 2) := ⟨_, rfl⟩
  obtain ⟨A1, B1, hg⟩ := near_bounds y1 h1 r1 hA hB
  have A0 : 0 < A := by linarith
  have B0 : 0 < B := by linarith
  have hD1 : den1 (keplerFi M e E) (1 - e * cos E) (e * sin E) = a ^ 2 * A := by
    rw [den1_eq, hf, hq, ← ha2, hA]
    field_simp
  have hD2 : den2 (keplerFi M e E) (1 - e * cos E) (e * sin E) (e * cos E) = a ^ 2 * B := by
    rw [den2_eq, hD1, hf, hq, ← ha2, hB]
    field_simp
  obtain ⟨k1, ξ, _, k2⟩ := danby_key M e E (-(y * a / A)) (-(y * a / B)) hp (by rw [hD1]; positivity) (by rw [hD2]; positivity) (by rw [hD1, hf]; field_simp) (by rw [hD2, hf]; field_simp)
  have hmain : -(y * a / B) * ((-(y * a / B) - -(y * a / A)) * (e * sin E / 2 + e * cos E * (-(y * a / B) + -(y * a / A)) / 6)) =
      keplerFi M e E * (1 / B * (1 / B - 1 / A) * (y * h' / 2 - e * cos E * y ^ 2 * (1 / A + 1 / B) / 6)) := by
    rw [hf, hq]
    field_simp
    ring
  have hb : 1 / B ≤ 1419 / 1000 := by rw [div_le_iff₀ B0]; linarith
  have hb0 : 0 < 1 / B := by positivity
  have hd : |-(y * a / B)| ≤ 4257 / 10000 * a := by
    rw [abs_neg, abs_div, abs_mul, abs_of_pos ha0, abs_of_pos B0, mul_div_assoc, div_eq_mul_one_div]
    have := mul_le_mul y1 hb hb0.le (by norm_num)
    nlinarith
  have hrem : |e * (sin ξ * ((-(y * a / B)) ^ 4 / 24))| ≤ |keplerFi M e E| * (65 / 10000) := by
    have h2 : |y| ^ 3 ≤ (3 / 10) ^ 3 := by gcongr
    have h3 : (1 / B) ^ 4 ≤ (1419 / 1000) ^ 4 := by gcongr
    have e1 : (-(y * a / B)) ^ 4 = |keplerFi M e E| * (|y| ^ 3 * a * (1 / B) ^ 4) := by
      rw [hf, abs_mul, abs_of_pos (by positivity : 0 < a ^ 3)]
      have : |y| ^ 4 = y ^ 4 := by rw [← abs_pow]; exact abs_of_nonneg (by positivity)
      have : (-(y * a / B)) ^ 4 = |y| ^ 4 * a ^ 4 * (1 / B) ^ 4 := by rw [this]; field_simp
      rw [this]; ring
    rw [e1, abs_mul, abs_mul, abs_of_nonneg he]
    have h4 : |y| ^ 3 * a * (1 / B) ^ 4 ≤ (3 / 10) ^ 3 * (14143 / 10000) * (1419 / 1000) ^ 4 := by gcongr
    have h5 : |y| ^ 3 * a * (1 / B) ^ 4 ≤ 156 / 1000 := h4.trans (by norm_num)
    have h6 : |(|keplerFi M e E| * (|y| ^ 3 * a * (1 / B) ^ 4) / 24)| ≤ |keplerFi M e E| * (65 / 10000) := by
      rw [abs_of_nonneg (by positivity)]
      have := mul_le_mul_of_nonneg_left h5 (abs_nonneg (keplerFi M e E))
      linarith
    calc _ ≤ 1 * (1 * |(|keplerFi M e E| * (|y| ^ 3 * a * (1 / B) ^ 4) / 24)|) := by
          gcongr
          exact abs_sin_le_one ξ
      _ ≤ _ := by linarith
  have hf1 : |keplerFi M e (E + -(y * a / B))| ≤ |keplerFi M e E| * (605 / 10000) := by
    rw [k2, hmain]
    refine (abs_sub _ _).trans ?_
    rw [abs_mul]
    have := mul_le_mul_of_nonneg_left hg (abs_nonneg (keplerFi M e E))
    linarith
  refine ⟨_, k1, ?_, ?_⟩
  · unfold Close at h ⊢
    rw [← ha2] at h
    exact near_close he he1 ha0 ha2 hq h1 hd h hf1
  · have := abs_nonneg (keplerFi M e E)
    linarith

end Radvel
