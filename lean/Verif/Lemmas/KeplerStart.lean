import Verif.Lemmas.KeplerRight

/-! # Lemmas for C167: the guess of the NumPy solver, for eccentricities from 3/5 to 1 -/

namespace Radvel
open Real

/-- The correction commutes with whole turns and with the reflection. -/
theorem danby_sym {M e E M0 E0 σ : ℝ} (k : ℤ) (hσ : σ = 1 ∨ σ = -1) (hM : M = k * (2 * π) + σ * M0) (hE : E = k * (2 * π) + σ * E0) : danby M e E = (danby M0 e E0).map fun x => k * (2 * π) + σ * x := by
  have hc : cos E = cos E0 := by
    rw [hE, add_comm, cos_add_int_mul_two_pi]
    rcases hσ with rfl | rfl
    · rw [one_mul]
    · rw [neg_one_mul, cos_neg]
  have hs : sin E = σ * sin E0 := by
    rw [hE, add_comm, sin_add_int_mul_two_pi]
    rcases hσ with rfl | rfl
    · rw [one_mul, one_mul]
    · rw [neg_one_mul, neg_one_mul, sin_neg]
  have hf : keplerFi M e E = σ * keplerFi M0 e E0 := by
    unfold keplerFi
    rw [hs, hM, hE]; ring
  have hσ2 : σ * σ = 1 := by rcases hσ with rfl | rfl <;> norm_num
  have a1 : 1 - e * cos E0 + -(σ * keplerFi M0 e E0) / (1 - e * cos E0) * (e * (σ * sin E0)) / 2 = 1 - e * cos E0 + -keplerFi M0 e E0 / (1 - e * cos E0) * (e * sin E0) / 2 := by
    linear_combination (-keplerFi M0 e E0 / (1 - e * cos E0) * (e * sin E0) / 2) * hσ2
  have a2 : ∀ D : ℝ, 1 - e * cos E0 + -(σ * keplerFi M0 e E0) / D * (e * (σ * sin E0)) / 2 + -(σ * keplerFi M0 e E0) / D * (-(σ * keplerFi M0 e E0) / D) * (1 - (1 - e * cos E0)) / 6 =
      1 - e * cos E0 + -keplerFi M0 e E0 / D * (e * sin E0) / 2 + -keplerFi M0 e E0 / D * (-keplerFi M0 e E0 / D) * (1 - (1 - e * cos E0)) / 6 := by
    intro D
    linear_combination (-keplerFi M0 e E0 / D * (e * sin E0) / 2 + -keplerFi M0 e E0 / D * (-keplerFi M0 e E0 / D) * (1 - (1 - e * cos E0)) / 6) * hσ2
  unfold danby
  simp only [hf, hc, hs, a1, a2]
  split_ifs
  · rfl
  · simp [hE]
  · rfl
  · rfl
  · simp only [Option.map_some, hE]
    congr 1
    ring

theorem fi_sym {M e E M0 E0 σ : ℝ} (k : ℤ) (hσ : σ = 1 ∨ σ = -1) (hM : M = k * (2 * π) + σ * M0) (hE : E = k * (2 * π) + σ * E0) : |keplerFi M e E| = |keplerFi M0 e E0| := by
  have hs : sin E = σ * sin E0 := by
    rw [hE, add_comm, sin_add_int_mul_two_pi]
    rcases hσ with rfl | rfl
    · rw [one_mul, one_mul]
    · rw [neg_one_mul, neg_one_mul, sin_neg]
  have hf : keplerFi M e E = σ * keplerFi M0 e E0 := by
    unfold keplerFi
    rw [hs, hM, hE]; ring
  rw [hf, abs_mul]
  rcases hσ with rfl | rfl <;> simp

/-- Near the top of the sine the guess is close to the solution. -/
theorem start_top {e s c : ℝ} (he : 0 ≤ e) (he1 : e < 1) (hsc : s ^ 2 + c ^ 2 = 1) (hs : 17 / 20 ≤ s) : 100 * (e * (17 / 20 - s)) ^ 2 ≤ 9 * (1 - e * c) ^ 3 := by
  have hs1 : s ≤ 1 := by nlinarith [sq_nonneg c]
  have h1 : (e * (17 / 20 - s)) ^ 2 ≤ (s - 17 / 20) ^ 2 := by
    have : e ^ 2 ≤ 1 := by nlinarith
    rw [mul_pow]
    nlinarith [sq_nonneg (17 / 20 - s)]
  rcases le_or_gt c (37 / 100) with hc | hc
  · have h2 : 63 / 100 ≤ 1 - e * c := by
      rcases le_total c 0 with h | h
      · have := mul_nonpos_of_nonneg_of_nonpos he h
        linarith
      · have := mul_le_mul he1.le hc h (by norm_num)
        linarith
    have h3 : (63 / 100) ^ 3 ≤ (1 - e * c) ^ 3 := by gcongr
    have h4 : (s - 17 / 20) ^ 2 ≤ (3 / 20) ^ 2 := pow_le_pow_left₀ (by linarith) (by linarith) 2
    linarith
  · have hs2 : s ≤ 93 / 100 := by nlinarith
    have hc2 : c ≤ 527 / 1000 := by nlinarith
    have h2 : 473 / 1000 ≤ 1 - e * c := by
      have := mul_le_mul he1.le hc2 (by linarith) (by norm_num)
      linarith
    have h3 : (473 / 1000) ^ 3 ≤ (1 - e * c) ^ 3 := by gcongr
    have h4 : (s - 17 / 20) ^ 2 ≤ (8 / 100) ^ 2 := pow_le_pow_left₀ (by linarith) (by linarith) 2
    linarith

/-- On the far side of the orbit the guess is close to the solution, before half a turn. -/
theorem start_far {e s c : ℝ} (he : 0 ≤ e) (he1 : e < 1) (hsc : s ^ 2 + c ^ 2 = 1) (hs : 1 / 20 ≤ s) (hs1 : s ≤ 17 / 20) (hc : c < 0) : 100 * (e * (17 / 20 - s)) ^ 2 ≤ 9 * (1 - e * c) ^ 3 := by
  have go : ∀ a b : ℝ, 0 ≤ b → a ≤ -c → 0 ≤ a → 17 / 20 - s ≤ b → a ≤ 1 → 100 * b ^ 2 ≤ 9 * (1 + a) ^ 3 → 100 * (e * (17 / 20 - s)) ^ 2 ≤ 9 * (1 - e * c) ^ 3 := by
    intro a b b0 hac a0 hb a1 hab
    have h1 : (17 / 20 - s) ^ 2 ≤ b ^ 2 := pow_le_pow_left₀ (by linarith) hb 2
    have h2 : 1 + e * a ≤ 1 - e * c := by
      have := mul_le_mul_of_nonneg_left hac he
      linarith
    have h3 : (1 + e * a) ^ 3 ≤ (1 - e * c) ^ 3 := by gcongr
    have h4 : e ^ 2 * (1 + a) ^ 3 ≤ (1 + e * a) ^ 3 := by
      have : (1 + e * a) ^ 3 - e ^ 2 * (1 + a) ^ 3 = (1 - e) * (1 + e + 3 * (a * e) - a ^ 3 * e ^ 2) := by ring
      have h5 : a ^ 3 ≤ 1 := pow_le_one₀ a0 a1
      have h6 : e ^ 2 ≤ 1 := pow_le_one₀ he he1.le
      have h7 : a ^ 3 * e ^ 2 ≤ 1 := mul_le_one₀ h5 (by positivity) h6
      have h8 : 0 ≤ a * e := mul_nonneg a0 he
      have := mul_nonneg (by linarith : 0 ≤ 1 - e) (by linarith : 0 ≤ 1 + e + 3 * (a * e) - a ^ 3 * e ^ 2)
      linarith
    have h5 : e ^ 2 * (100 * b ^ 2) ≤ e ^ 2 * (9 * (1 + a) ^ 3) := by gcongr
    have h6 : e ^ 2 * (17 / 20 - s) ^ 2 ≤ e ^ 2 * b ^ 2 := by gcongr
    rw [mul_pow]
    linarith
  rcases le_total s (3 / 10) with h | h
  · refine go (95 / 100) (8 / 10) (by norm_num) (by nlinarith) (by norm_num) (by linarith) (by norm_num) (by norm_num)
  · refine go (52 / 100) (55 / 100) (by norm_num) (by nlinarith) (by norm_num) (by linarith) (by norm_num) (by norm_num)

/-- The estimates behind `start_step`. -/
theorem start_bounds {u t w A B : ℝ} (hu : 0 ≤ u) (hu1 : u ≤ 1) (ht : -(46 / 100) ≤ t) (ht1 : t ≤ 4 / 100) (hw : -(1 / 2) ≤ w) (hw1 : w ≤ 0) (hA : A = 1 - t / 2) (hB : B = 1 - t / (2 * A) + w * u ^ 2 / (6 * A ^ 2)) :
    98 / 100 ≤ A ∧ 89 / 100 ≤ B ∧ |1 / B - 1 / A| ≤ 17 / 100 := by
  have A1 : 98 / 100 ≤ A := by rw [hA]; linarith
  have A2 : A ≤ 123 / 100 := by rw [hA]; linarith
  have A0 : 0 < A := by linarith
  obtain ⟨a, ha⟩ : ∃ a, a = 1 / A := ⟨_, rfl⟩
  have a0 : 0 < a := by rw [ha]; positivity
  have a1 : a ≤ 1021 / 1000 := by rw [ha, div_le_iff₀ A0]; linarith
  have haA : a * A = 1 := by rw [ha]; field_simp
  have hu2 : u ^ 2 ≤ 1 := pow_le_one₀ hu hu1
  have hW : -(1 / 2) ≤ w * u ^ 2 := by nlinarith [sq_nonneg u]
  have hW1 : w * u ^ 2 ≤ 0 := mul_nonpos_of_nonpos_of_nonneg hw1 (sq_nonneg u)
  obtain ⟨W, hWd⟩ : ∃ W, W = w * u ^ 2 := ⟨_, rfl⟩
  rw [← hWd] at hW hW1 hB
  have hB' : B = 1 - t * a / 2 + W * a ^ 2 / 6 := by rw [hB, ha]; field_simp
  have a2 : a ^ 2 ≤ 1043 / 1000 := by nlinarith
  have h1 : t * a ≤ 4 / 100 * (1021 / 1000) := by nlinarith
  have h2 : -(1 / 2 * (1043 / 1000)) ≤ W * a ^ 2 := by nlinarith [sq_nonneg a]
  have h2' : W * a ^ 2 ≤ 0 := mul_nonpos_of_nonpos_of_nonneg hW1 (sq_nonneg a)
  have B1 : 89 / 100 ≤ B := by rw [hB']; linarith
  have B0 : 0 < B := by linarith
  refine ⟨A1, B1, ?_⟩
  have hAB : A - B = t ^ 2 * a / 4 - W * a ^ 2 / 6 := by
    have h3 : t / 2 * (a * A) = t / 2 := by rw [haA]; ring
    rw [hA] at h3
    rw [hB', hA]
    linear_combination h3
  have ht2 : t ^ 2 ≤ 2116 / 10000 := by nlinarith
  have h4 : t ^ 2 * a ≤ 2116 / 10000 * (1021 / 1000) := by gcongr
  have h5 : 0 ≤ t ^ 2 * a := by positivity
  have h6 : 1 / B - 1 / A = (A - B) / (A * B) := by field_simp
  rw [h6, abs_of_nonneg (div_nonneg (by rw [hAB]; linarith) (by positivity)), div_le_iff₀ (by positivity), hAB]
  have : 98 / 100 * (89 / 100) ≤ A * B := mul_le_mul A1 B1 (by norm_num) (by linarith)
  linarith

/-- The end of a short step on the far side of the orbit. -/
theorem start_close {M e E d : ℝ} (e0 : 0 < e) (hc1 : cos E ≤ -(659 / 1000)) (hs1 : sin E ≤ 1 / 20) (d0 : 0 < d) (d1 : d ≤ 1124 / 1000) (hf' : |keplerFi M e (E + -d)| ≤ 3 / 10) : Close M e (E + -d) := by
  have hcos : cos (E + -d) ≤ 0 := by
    rw [← sub_eq_add_neg, cos_sub]
    have h1 := one_sub_sq_div_two_le_cos (x := d)
    have h2 : 36 / 100 ≤ cos d := by nlinarith
    have h3 : 0 ≤ sin d := sin_nonneg_of_nonneg_of_le_pi d0.le (by linarith [pi_gt_three])
    have h4 := sin_le_one d
    have h5 : cos E * cos d ≤ -(659 / 1000) * (36 / 100) := by nlinarith
    have h6 : sin E * sin d ≤ 1 / 20 := by nlinarith
    linarith
  unfold Close
  have h1 : 1 ≤ 1 - e * cos (E + -d) := by
    have := mul_nonpos_of_nonneg_of_nonpos e0.le hcos
    linarith
  have h2 : 1 ≤ (1 - e * cos (E + -d)) ^ 3 := one_le_pow₀ h1
  have h3 : keplerFi M e (E + -d) ^ 2 ≤ (3 / 10) ^ 2 := by
    rw [← sq_abs]
    exact pow_le_pow_left₀ (abs_nonneg _) hf' 2
  linarith

/-- The residual after a short step on the far side of the orbit. -/
theorem start_residual {e d d2 q r ξ : ℝ} (e0 : 0 < e) (he1 : e < 1) (d0 : 0 < d) (d1 : d ≤ 1124 / 1000) (d20 : 0 < d2) (d21 : d2 ≤ 1021 / 1000) (hdd : |d - d2| ≤ 17 / 100) (hq' : |q| ≤ 752 / 1000) (hr' : |r| ≤ 1) :
    |-d * ((-d - -d2) * (q / 2 + r * (-d + -d2) / 6)) - e * (sin ξ * ((-d) ^ 4 / 24))| ≤ 3 / 10 := by
  have hbr : |q / 2 + r * (-d + -d2) / 6| ≤ 734 / 1000 := by
    have h1 : |r * (-d + -d2)| ≤ 1 * (2145 / 1000) := by
      rw [abs_mul]
      refine mul_le_mul hr' ?_ (abs_nonneg _) (by norm_num)
      rw [abs_le]
      constructor <;> linarith
    have h1' := abs_le.mp h1
    have h2' := abs_le.mp hq'
    rw [abs_le]
    constructor <;> linarith
  have hmain : |-d * ((-d - -d2) * (q / 2 + r * (-d + -d2) / 6))| ≤ 1124 / 1000 * (17 / 100 * (734 / 1000)) := by
    rw [abs_mul, abs_mul, abs_neg, abs_of_pos d0]
    have : |-d - -d2| ≤ 17 / 100 := by
      rw [← abs_neg]
      have : -(-d - -d2) = d - d2 := by ring
      rw [this]; exact hdd
    gcongr
  have hrem : |e * (sin ξ * ((-d) ^ 4 / 24))| ≤ 1 * (1 * ((1124 / 1000) ^ 4 / 24)) := by
    rw [abs_mul, abs_mul, abs_of_pos e0, abs_of_nonneg (by positivity : 0 ≤ (-d) ^ 4 / 24), (by ring : (-d) ^ 4 = d ^ 4)]
    have := abs_sin_le_one ξ
    gcongr
  refine (abs_sub _ _).trans ?_
  refine (add_le_add hmain hrem).trans ?_
  norm_num

/-- The first correction when the guess is beyond half a turn, or shortly before. -/
theorem start_step {M e E : ℝ} (he : 3 / 5 ≤ e) (he1 : e < 1) (hf : keplerFi M e E = e * (17 / 20 - sin E)) (hs : -(752 / 1000) ≤ sin E) (hs1 : sin E ≤ 1 / 20) (hc : cos E < 0) :
    ∃ E', danby M e E = some E' ∧ Close M e E' ∧ |keplerFi M e E'| ≤ 3 / 10 := by
  have e0 : 0 < e := by linarith
  have hsc := sin_sq_add_cos_sq E
  have hc1 : cos E ≤ -(659 / 1000) := by nlinarith
  have hc2 := neg_one_le_cos E
  obtain ⟨f, hfd⟩ : ∃ f, f = keplerFi M e E := ⟨_, rfl⟩
  obtain ⟨p, hp⟩ : ∃ p, p = 1 - e * cos E := ⟨_, rfl⟩
  obtain ⟨q, hq⟩ : ∃ q, q = e * sin E := ⟨_, rfl⟩
  obtain ⟨r, hr⟩ : ∃ r, r = e * cos E := ⟨_, rfl⟩
  rw [← hfd] at hf
  have hr1 : r ≤ -(659 / 1000) * e := by rw [hr]; linarith [mul_le_mul_of_nonneg_left hc1 e0.le]
  have hr2 : -e ≤ r := by rw [hr]; linarith [mul_le_mul_of_nonneg_left hc2 e0.le]
  have hpr : p = 1 - r := by rw [hp, hr]
  have p0 : 0 < p := by linarith
  have f0 : 0 < f := by rw [hf]; exact mul_pos e0 (by linarith)
  have q1 : q ≤ 1 / 20 * e := by rw [hq]; linarith [mul_le_mul_of_nonneg_left hs1 e0.le]
  have q2 : -(752 / 1000) * e ≤ q := by rw [hq]; linarith [mul_le_mul_of_nonneg_left hs e0.le]
  have hfq : f = 17 / 20 * e - q := by rw [hf, hq]; ring
  obtain ⟨u, hu⟩ : ∃ u, u = f / p := ⟨_, rfl⟩
  have u0 : 0 < u := by rw [hu]; positivity
  have u1 : u ≤ 1 := by rw [hu, div_le_one p0]; linarith
  obtain ⟨v, hv⟩ : ∃ v, v = q / p := ⟨_, rfl⟩
  have v1 : v ≤ 4 / 100 := by rw [hv, div_le_iff₀ p0]; linarith
  have v2 : -(46 / 100) ≤ v := by rw [hv, le_div_iff₀ p0]; linarith
  obtain ⟨w, hw⟩ : ∃ w, w = r / p := ⟨_, rfl⟩
  have w1 : w ≤ 0 := by rw [hw]; exact div_nonpos_of_nonpos_of_nonneg (by linarith) p0.le
  have w2 : -(1 / 2) ≤ w := by rw [hw, le_div_iff₀ p0]; linarith
  have t1 : u * v ≤ 4 / 100 := by
    have := mul_le_mul_of_nonneg_left v1 u0.le
    linarith
  have t2 : -(46 / 100) ≤ u * v := by
    have := mul_le_mul_of_nonneg_left v2 u0.le
    linarith
  obtain ⟨A, hA⟩ : ∃ A, A = 1 - u * v / 2 := ⟨_, rfl⟩
  obtain ⟨B, hB⟩ : ∃ B, B = 1 - u * v / (2 * A) + w * u ^ 2 / (6 * A ^ 2) := ⟨_, rfl⟩
  obtain ⟨A1, B1, hAB⟩ := start_bounds u0.le u1 t2 t1 w2 w1 hA hB
  have A0 : 0 < A := by linarith
  have B0 : 0 < B := by linarith
  have hfu : f = u * p := by rw [hu]; field_simp
  have hqv : q = v * p := by rw [hv]; field_simp
  have hrw : r = w * p := by rw [hw]; field_simp
  have hD1 : den1 f p q = p * A := by
    rw [den1_eq, hfu, hqv, hA]; field_simp
  have hD2 : den2 f p q r = p * B := by
    rw [den2_eq, hD1, hfu, hqv, hrw, hB]; field_simp
  obtain ⟨k1, ξ, -, k2⟩ := danby_key M e E (-(u * (1 / A))) (-(u * (1 / B))) (by rw [← hp]; exact p0) (by rw [← hfd, ← hp, ← hq, hD1]; positivity) (by rw [← hfd, ← hp, ← hq, ← hr, hD2]; positivity)
    (by rw [← hfd, ← hp, ← hq, hD1, hfu]; field_simp) (by rw [← hfd, ← hp, ← hq, ← hr, hD2, hfu]; field_simp)
  rw [← hq, ← hr] at k2
  obtain ⟨d, hd⟩ : ∃ d, d = u * (1 / B) := ⟨_, rfl⟩
  obtain ⟨d2, hd2⟩ : ∃ d2, d2 = u * (1 / A) := ⟨_, rfl⟩
  rw [← hd, ← hd2] at k2
  rw [← hd] at k1
  have iB : 1 / B ≤ 1124 / 1000 := by rw [div_le_iff₀ B0]; linarith
  have iA : 1 / A ≤ 1021 / 1000 := by rw [div_le_iff₀ A0]; linarith
  have d0 : 0 < d := by rw [hd]; positivity
  have d1 : d ≤ 1124 / 1000 := by
    rw [hd]
    have := mul_le_mul u1 iB (by positivity) (by norm_num)
    linarith
  have d20 : 0 < d2 := by rw [hd2]; positivity
  have d21 : d2 ≤ 1021 / 1000 := by
    rw [hd2]
    have := mul_le_mul u1 iA (by positivity) (by norm_num)
    linarith
  have hdd : |d - d2| ≤ 17 / 100 := by
    have : d - d2 = u * (1 / B - 1 / A) := by rw [hd, hd2]; ring
    rw [this, abs_mul, abs_of_pos u0]
    have := mul_le_mul u1 hAB (abs_nonneg _) (by norm_num)
    linarith
  have hf' : |keplerFi M e (E + -d)| ≤ 3 / 10 := by
    rw [k2]
    exact start_residual e0 he1 d0 d1 d20 d21 hdd (by rw [abs_le]; constructor <;> linarith) (by rw [abs_le]; constructor <;> linarith)
  refine ⟨_, k1, ?_, hf'⟩
  exact start_close e0 hc1 hs1 d0 d1 hf'

/-- The guess of the NumPy solver for a mean anomaly of less than half a turn. -/
theorem np_start (M e E : ℝ) (he : 3 / 5 ≤ e) (he1 : e < 1) (hM0 : 0 < M) (hM1 : M < π) (hE : E = M + 17 / 20 * e) :
    ((Close M e E ∨ Right M e E) ∧ |keplerFi M e E| ≤ 17 / 20) ∨ ∃ E', danby M e E = some E' ∧ Close M e E' ∧ |keplerFi M e E'| ≤ 3 / 10 := by
  have e0 : 0 < e := by linarith
  have hf : keplerFi M e E = e * (17 / 20 - sin E) := by unfold keplerFi; rw [hE]; ring
  have hsc := sin_sq_add_cos_sq E
  have hpi := pi_gt_three
  have hpi2 : π < 315 / 100 := by have := pi_lt_d2; norm_num at this ⊢; linarith
  have hE0 : 0 < E := by rw [hE]; linarith
  have hE1 : E < π + 17 / 20 := by rw [hE]; linarith
  have hs0 : -(752 / 1000) ≤ sin E := by
    rcases le_total E π with h | h
    · have := sin_nonneg_of_nonneg_of_le_pi hE0.le h
      linarith
    · have h1 : sin (E - π) ≤ sin (17 / 20) := sin_le_sin_of_le_of_le_pi_div_two (by linarith) (by linarith) (by linarith)
      have h2 := sin_le_five (17 / 20) (by norm_num)
      rw [sin_sub_pi] at h1
      norm_num at h2
      linarith
  have hs1 := sin_le_one E
  rcases le_or_gt (17 / 20) (sin E) with h1 | h1
  · left
    refine ⟨.inl ?_, ?_⟩
    · unfold Close
      rw [hf]
      exact start_top e0.le he1 hsc h1
    · rw [hf, abs_mul, abs_of_pos e0, abs_of_nonpos (by linarith)]
      have := mul_le_mul he1.le (by linarith : -(17 / 20 - sin E) ≤ 17 / 20) (by linarith) (by norm_num)
      linarith
  · have hfa : 0 ≤ sin E → |keplerFi M e E| ≤ 17 / 20 := by
      intro h
      rw [hf, abs_mul, abs_of_pos e0, abs_of_nonneg (by linarith)]
      have := mul_le_mul he1.le (by linarith : 17 / 20 - sin E ≤ 17 / 20) (by linarith) (by norm_num)
      linarith
    rcases lt_or_ge (cos E) 0 with hc | hc
    · rcases le_total (1 / 20) (sin E) with h2 | h2
      · left
        refine ⟨.inl ?_, hfa (by linarith)⟩
        unfold Close
        rw [hf]
        exact start_far e0.le he1 hsc h2 h1.le hc
      · right
        exact start_step he he1 hf hs0 h2 hc
    · left
      have hE2 : E < π / 2 := by
        by_contra h
        push Not at h
        have h2 := cos_nonpos_of_pi_div_two_le_of_le h (by linarith)
        have h3 : cos E = 0 := le_antisymm h2 hc
        rw [h3] at hsc
        have : sin E ^ 2 < 1 := by nlinarith
        linarith
      have hsn : 0 ≤ sin E := sin_nonneg_of_nonneg_of_le_pi hE0.le (by linarith)
      refine ⟨.inr ⟨hE0, ?_, ?_⟩, hfa hsn⟩
      · by_contra h
        push Not at h
        have h2 := cos_le_four E hE0.le
        have h3 : E ^ 2 ≤ 25 / 10 := by nlinarith
        have h4 : cos E ≤ 5256 / 10000 := by
          have : E ^ 4 = E ^ 2 * E ^ 2 := by ring
          rw [this] at h2
          nlinarith
        nlinarith
      · rw [hf]
        exact mul_nonneg e0.le (by linarith)

/-- Up to whole turns and reflection: close to the solution, or on the right of it. -/
def OnTrack (M e E : ℝ) : Prop :=
  ∃ (k : ℤ) (σ M0 E0 : ℝ), (σ = 1 ∨ σ = -1) ∧ M = k * (2 * π) + σ * M0 ∧ E = k * (2 * π) + σ * E0 ∧ (Close M0 e E0 ∨ (0 ≤ M0 ∧ Right M0 e E0))

theorem good_step {M e E : ℝ} (he : 3 / 5 ≤ e) (he1 : e < 1) (h : OnTrack M e E) : ∃ E', danby M e E = some E' ∧ OnTrack M e E' ∧ |keplerFi M e E'| ≤ |keplerFi M e E| / 3 := by
  obtain ⟨k, σ, M0, E0, hσ, hM, hE, h⟩ := h
  have key : ∃ E1, danby M0 e E0 = some E1 ∧ (Close M0 e E1 ∨ (0 ≤ M0 ∧ Right M0 e E1)) ∧ |keplerFi M0 e E1| ≤ |keplerFi M0 e E0| / 3 := by
    have near : Close M0 e E0 → ∃ E1, danby M0 e E0 = some E1 ∧ (Close M0 e E1 ∨ (0 ≤ M0 ∧ Right M0 e E1)) ∧ |keplerFi M0 e E1| ≤ |keplerFi M0 e E0| / 3 := by
      intro h
      obtain ⟨E1, k1, k2, k3⟩ := danby_near M0 e E0 (by linarith) he1 h
      exact ⟨E1, k1, .inl k2, k3.trans (by linarith [abs_nonneg (keplerFi M0 e E0)])⟩
    rcases h with h | ⟨h0, h⟩
    · exact near h
    · rcases danby_right M0 e E0 he he1 h0 h with h | ⟨E1, k1, k2, k3⟩
      · exact near h
      · exact ⟨E1, k1, k2.imp id fun h => ⟨h0, h⟩, k3⟩
  obtain ⟨E1, k1, k2, k3⟩ := key
  refine ⟨k * (2 * π) + σ * E1, by rw [danby_sym k hσ hM hE, k1]; rfl, ⟨k, σ, M0, E1, hσ, hM, rfl, k2⟩, ?_⟩
  rw [fi_sym k hσ hM rfl, fi_sym k hσ hM hE]
  exact k3

/-- The guess of the NumPy solver, for every mean anomaly. -/
theorem good_start (M e : ℝ) (he : 3 / 5 ≤ e) (he1 : e < 1) : (OnTrack M e (npGuess M e) ∧ |keplerFi M e (npGuess M e)| ≤ 17 / 20) ∨ ∃ E', danby M e (npGuess M e) = some E' ∧ OnTrack M e E' ∧ |keplerFi M e E'| ≤ 17 / 20 := by
  obtain ⟨k, hk⟩ : ∃ k : ℤ, -π < M - k * (2 * π) ∧ M - k * (2 * π) ≤ π := by
    have h2 : 0 < 2 * π := by positivity
    refine ⟨toIocDiv h2 (-π) M, ?_⟩
    have := sub_toIocDiv_zsmul_mem_Ioc h2 (-π) M
    simp only [zsmul_eq_mul] at this
    exact ⟨this.1, by have := this.2; linarith⟩
  have go : ∀ (σ M0 : ℝ), (σ = 1 ∨ σ = -1) → M = k * (2 * π) + σ * M0 → 0 < M0 → M0 < π → (OnTrack M e (npGuess M e) ∧ |keplerFi M e (npGuess M e)| ≤ 17 / 20) ∨ ∃ E', danby M e (npGuess M e) = some E' ∧ OnTrack M e E' ∧ |keplerFi M e E'| ≤ 17 / 20 := by
    intro σ M0 hσ hM h0 h1
    have hsin : sin M = σ * sin M0 := by
      rw [hM, add_comm, sin_add_int_mul_two_pi]
      rcases hσ with rfl | rfl
      · rw [one_mul, one_mul]
      · rw [neg_one_mul, neg_one_mul, sin_neg]
    have hs0 : 0 < sin M0 := sin_pos_of_pos_of_lt_pi h0 h1
    have hg : npGuess M e = k * (2 * π) + σ * (M0 + 17 / 20 * e) := by
      unfold npGuess
      have : (SignType.sign (sin M) : ℝ) = σ := by
        rw [hsin]
        rcases hσ with rfl | rfl
        · rw [sign_pos (by linarith)]; simp
        · rw [sign_neg (by linarith)]; simp
      rw [this]
      linear_combination hM
    rcases np_start M0 e _ he he1 h0 h1 rfl with ⟨h, hb⟩ | ⟨E1, k1, k2, k3⟩
    · left
      refine ⟨⟨k, σ, M0, _, hσ, hM, hg, h.imp id fun h => ⟨h0.le, h⟩⟩, ?_⟩
      rw [fi_sym k hσ hM hg]
      exact hb
    · right
      refine ⟨k * (2 * π) + σ * E1, by rw [danby_sym k hσ hM hg, k1]; rfl, ⟨k, σ, M0, E1, hσ, hM, rfl, .inl k2⟩, ?_⟩
      rw [fi_sym k hσ hM rfl]
      exact k3.trans (by norm_num)
  have zero : sin M = 0 → OnTrack M e (npGuess M e) ∧ |keplerFi M e (npGuess M e)| ≤ 17 / 20 := by
    intro h
    have hg : npGuess M e = M := by unfold npGuess; rw [h, sign_zero]; simp
    have hf : keplerFi M e M = 0 := by unfold keplerFi; rw [h]; ring
    rw [hg]
    refine ⟨⟨0, 1, M, M, .inl rfl, by simp, by simp, .inl ?_⟩, by rw [hf]; norm_num⟩
    unfold Close
    rw [hf]
    have : 0 ≤ 1 - e * cos M := by nlinarith [cos_le_one M]
    have : 0 ≤ (1 - e * cos M) ^ 3 := by positivity
    linarith
  rcases lt_trichotomy (M - k * (2 * π)) 0 with h | h | h
  · exact go (-1) (-(M - k * (2 * π))) (.inr rfl) (by ring) (by linarith) (by linarith)
  · left
    refine zero ?_
    have : M = 0 + k * (2 * π) := by linarith
    rw [this, sin_add_int_mul_two_pi, sin_zero]
  · rcases lt_or_eq_of_le hk.2 with h2 | h2
    · exact go 1 (M - k * (2 * π)) (.inl rfl) (by ring) h h2
    · left
      refine zero ?_
      have : M = π + k * (2 * π) := by linarith
      rw [this, sin_add_int_mul_two_pi, sin_pi]

end Radvel
