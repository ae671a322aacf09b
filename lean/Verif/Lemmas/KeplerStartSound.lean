import Verif.Lemmas.KeplerStart
import Verif.Lemmas.KeplerFarSound
import Verif.Lemmas.KeplerFarCover
import Verif.Lemmas.KeplerStartCover

/-! # Lemmas for C167: the corrections of the C solver, for eccentricities from 3/5 to 99/100 -/

namespace Radvel
open Iv Real

/-- On the right of the solution, perhaps far from it. -/
def Far (M e E : ℝ) : Prop := 93 / 100 ≤ e ∧ 1 / 25 ≤ M ∧ 0 < E ∧ E ≤ π ∧ 0 ≤ keplerFi M e E

/-- The correction at the mean anomaly. -/
theorem first_step {M e p u D : ℝ} (hp : p = 1 - e * cos M) (hu : u = e * sin M / p) (p0 : 0 < p) (u0 : 0 < u)
    (hD : D = 1 / u + u * (1 / (u ^ 2 + 2)) + (1 / p - 1) * (u * (1 / (u ^ 2 + 2) ^ 2)) * 2 / 3) (D0 : 0 < D) : danby M e M = some (M + 1 / D) := by
  have hq : e * sin M = u * p := by rw [hu]; field_simp
  have hr : e * cos M = 1 - p := by rw [hp]; ring
  have hf : keplerFi M e M = -(u * p) := by unfold keplerFi; rw [hq]; ring
  have hD1 : den1 (-(u * p)) p (u * p) = p * ((u ^ 2 + 2) / 2) := by
    rw [den1_eq]; field_simp; ring
  have hD2 : den2 (-(u * p)) p (u * p) (1 - p) = p * (u * D) := by
    rw [den2_eq, hD1, hD]; field_simp; ring
  rw [danby_eq M e M (by rw [← hp]; exact p0) (by rw [hf, ← hp, hq, hD1]; positivity) (by rw [hf, ← hp, hq, hr, hD2]; positivity), hf, ← hp, hq, hr, hD2]
  congr 2
  field_simp

theorem start_h_mono {x y : ℝ} (hx : 0 < x) (hxy : x ≤ y) : 1 / y + y * (1 / (y ^ 2 + 2)) ≤ 1 / x + x * (1 / (x ^ 2 + 2)) := by
  have hy : 0 < y := hx.trans_le hxy
  have e : ∀ z : ℝ, 0 < z → 1 / z + z * (1 / (z ^ 2 + 2)) = (2 * z ^ 2 + 2) / (z * (z ^ 2 + 2)) := by
    intro z hz; field_simp; ring
  rw [e y hy, e x hx, div_le_div_iff₀ (by positivity) (by positivity)]
  have : (2 * x ^ 2 + 2) * (y * (y ^ 2 + 2)) - (2 * y ^ 2 + 2) * (x * (x ^ 2 + 2)) = (y - x) * (2 * (x * y) ^ 2 + 2 * (y ^ 2 + x * y + x ^ 2) + 4 - 4 * (x * y)) := by ring
  have h2 : 0 ≤ 2 * (x * y) ^ 2 + 2 * (y ^ 2 + x * y + x ^ 2) + 4 - 4 * (x * y) := by nlinarith [sq_nonneg (x * y), sq_nonneg (x - y), mul_pos hx hy]
  have := mul_nonneg (by linarith : 0 ≤ y - x) h2
  linarith

theorem start_k_mono {x y : ℝ} (hx : 0 < x) (hxy : x ≤ y) (h : 2 / 3 ≤ x ^ 2) : y * (1 / (y ^ 2 + 2) ^ 2) ≤ x * (1 / (x ^ 2 + 2) ^ 2) := by
  have hy : 0 < y := hx.trans_le hxy
  rw [mul_one_div, mul_one_div, div_le_div_iff₀ (by positivity) (by positivity)]
  have hxy2 : 2 / 3 ≤ x * y := by nlinarith
  have e : x * (y ^ 2 + 2) ^ 2 - y * (x ^ 2 + 2) ^ 2 = (y - x) * (4 * (x * y) + x * y * (y ^ 2 + x * y + x ^ 2) - 4) := by ring
  have h2 : 2 / 3 * 2 ≤ x * y * (y ^ 2 + x * y + x ^ 2) := by
    refine mul_le_mul hxy2 ?_ (by norm_num) (by positivity)
    nlinarith [sq_nonneg (x - y)]
  have := mul_nonneg (by linarith : 0 ≤ y - x) (by linarith : 0 ≤ 4 * (x * y) + x * y * (y ^ 2 + x * y + x ^ 2) - 4)
  linarith

/-- The residual grows with the anomaly. -/
theorem fi_mono {M e x y : ℝ} (e0 : 0 ≤ e) (he1 : e ≤ 1) (h : x ≤ y) : keplerFi M e x ≤ keplerFi M e y := by
  unfold keplerFi
  have h1 : sin y - sin x ≤ y - x := by
    have := abs_sin_sub_sin_le y x
    rw [abs_of_nonneg (by linarith : 0 ≤ y - x)] at this
    exact (le_abs_self _).trans this
  have h2 := mul_le_mul_of_nonneg_left h1 e0
  have h3 : e * (y - x) ≤ 1 * (y - x) := mul_le_mul_of_nonneg_right he1 (by linarith)
  linarith

theorem sq_low (i : Iv) : 0 ≤ i.sq.a := by
  unfold Iv.sq Iv.mulp
  rw [nn_eq, nn_eq]
  split_ifs <;> simp only
  · exact Int.ediv_nonneg (mul_self_nonneg _) (by norm_num)
  · exact Int.ediv_nonneg (mul_self_nonneg _) (by norm_num)
  · exact le_refl _

theorem sq_low_two (i : Iv) (h : 2097152 ≤ i.a) : 0 < i.sq.a := by
  unfold Iv.sq Iv.mulp
  rw [nn_eq, if_pos (by omega)]
  simp only
  have h2 : 2097152 * 2097152 ≤ i.a * i.a := mul_le_mul h h (by norm_num) (by omega)
  exact Int.lt_of_lt_of_le (by norm_num : (0 : Int) < 4194304) ((Int.le_ediv_iff_mul_le (by norm_num)).mpr (le_trans (by norm_num) h2))

/-- The slope after the correction. -/
theorem slopeI_sound {p' q' r' d d2 : Iv} {e E p q r δ : ℝ} (hp : p = 1 - e * cos E) (hq : q = e * sin E) (hr : r = e * cos E) (mp : p'.Mem p) (mq : q'.Mem q) (mr : r'.Mem r) (md : d.Mem δ) (md2 : d2.Mem (δ ^ 2)) :
    (slopeI p' q' r' d d2).Mem (1 - e * cos (E + δ)) := by
  obtain ⟨w1, a1, a2, a3⟩ := sin_factor_one δ
  obtain ⟨w2, b1, b2, b3⟩ := cos_factor_two δ
  have mw1 : (⟨(ivOne.sub (d2.divn 6)).a, 1048576⟩ : Iv).Mem w1 := by
    have := (mem_sub mem_one (mem_divn md2 6 (by norm_num))).1
    push_cast at this
    exact ⟨this.trans (by linarith), by push_cast; linarith⟩
  have mw2 : (⟨(ivOne.sub (d2.divn 12)).a, 1048576⟩ : Iv).Mem w2 := by
    have := (mem_sub mem_one (mem_divn md2 12 (by norm_num))).1
    push_cast at this
    exact ⟨this.trans (by linarith), by push_cast; linarith⟩
  have e1 : 1 - e * cos (E + δ) = p + q * δ * w1 + r * δ ^ 2 / (2 : Int) * w2 := by
    rw [cos_add, a3, b3, hp, hq, hr]
    push_cast
    ring
  rw [e1]
  unfold slopeI
  exact mem_add (mem_add mp (mem_mul (mem_mul mq md) mw1)) (mem_mul (mem_divn (mem_mul mr md2) 2 (by norm_num)) mw2)

theorem startD_sound {u' p' : Iv} {u p : ℝ} (mu : u'.Mem u) (mp : p'.Mem p) (hu : 0 < u'.a) (hp : 0 < p'.a) :
    (startD u' p').Mem (1 / u + u * (1 / (u ^ 2 + 2)) + (1 / p - 1) * (u * (1 / (u ^ 2 + 2) ^ 2)) * 2 / 3) := by
  have u0 := mem_pos mu hu
  have hab : u'.a ≤ u'.b := by
    have : (u'.a : ℝ) ≤ u'.b := mu.1.trans mu.2
    exact_mod_cast this
  have m2 : (ivPt 2097152).Mem 2 := by
    have := mem_pt 2097152
    norm_num at this
    exact this
  have lo : ∀ i : Iv, 2097152 ≤ (i.sq.add (ivPt 2097152)).a := by
    intro i
    have := sq_low i
    simp only [Iv.add, ivPt]
    omega
  have mh : ∀ x : Int, 0 < x → ((ivPt x).inv.add ((ivPt x).mul ((ivPt x).sq.add (ivPt 2097152)).inv)).Mem (1 / ((x : ℝ) / 1048576) + (x : ℝ) / 1048576 * (1 / (((x : ℝ) / 1048576) ^ 2 + 2))) := by
    intro x hx
    have m := mem_pt x
    exact mem_add (mem_inv m hx) (mem_mul m (mem_inv (mem_add (mem_sq m) m2) (by have := lo (ivPt x); omega)))
  have mk : ∀ {i : Iv} {z : ℝ}, i.Mem z → (i.mul (i.sq.add (ivPt 2097152)).sq.inv).Mem (z * (1 / (z ^ 2 + 2) ^ 2)) := by
    intro i z m
    exact mem_mul m (mem_inv (mem_sq (mem_add (mem_sq m) m2)) (sq_low_two _ (lo i)))
  have za : (u'.a : ℝ) / 1048576 ≤ u := by rw [div_le_iff₀ (by norm_num)]; exact mu.1
  have zb : u ≤ (u'.b : ℝ) / 1048576 := by rw [le_div_iff₀ (by norm_num)]; exact mu.2
  have za0 : 0 < (u'.a : ℝ) / 1048576 := by
    have : (0 : ℝ) < u'.a := by exact_mod_cast hu
    positivity
  have mH : (⟨((ivPt u'.b).inv.add ((ivPt u'.b).mul ((ivPt u'.b).sq.add (ivPt 2097152)).inv)).a, ((ivPt u'.a).inv.add ((ivPt u'.a).mul ((ivPt u'.a).sq.add (ivPt 2097152)).inv)).b⟩ : Iv).Mem (1 / u + u * (1 / (u ^ 2 + 2))) :=
    ⟨(mh u'.b (by omega)).1.trans (mul_le_mul_of_nonneg_right (start_h_mono u0 zb) (by norm_num)), (mul_le_mul_of_nonneg_right (start_h_mono za0 za) (by norm_num)).trans (mh u'.a hu).2⟩
  have mK : (if 856200 ≤ u'.a then ⟨((ivPt u'.b).mul ((ivPt u'.b).sq.add (ivPt 2097152)).sq.inv).a, ((ivPt u'.a).mul ((ivPt u'.a).sq.add (ivPt 2097152)).sq.inv).b⟩ else u'.mul (u'.sq.add (ivPt 2097152)).sq.inv : Iv).Mem (u * (1 / (u ^ 2 + 2) ^ 2)) := by
    split_ifs with h
    · have h1 : (856200 : ℝ) ≤ u'.a := by exact_mod_cast h
      have h2 : (8165 / 10000 : ℝ) ≤ (u'.a : ℝ) / 1048576 := by linarith
      have h3 : (2 / 3 : ℝ) ≤ ((u'.a : ℝ) / 1048576) ^ 2 := le_trans (by norm_num) (pow_le_pow_left₀ (by norm_num) h2 2)
      have h4 : (2 / 3 : ℝ) ≤ u ^ 2 := h3.trans (pow_le_pow_left₀ za0.le za 2)
      exact ⟨(mk (mem_pt _)).1.trans (mul_le_mul_of_nonneg_right (start_k_mono u0 zb h4) (by norm_num)), (mul_le_mul_of_nonneg_right (start_k_mono za0 za h3) (by norm_num)).trans (mk (mem_pt _)).2⟩
    · exact mk mu
  have m3 := mem_divn (mem_mul (mem_mul (mem_sub (mem_inv mp hp) mem_one) mK) m2) 3 (by norm_num)
  push_cast at m3
  unfold startD
  exact mem_add mH m3

/-- What `startEnd` says about the anomaly after the first correction. -/
theorem startEnd_sound {e2 u' p' f' p1' q1' : Iv} (h : startEnd e2 u' p' f' p1' q1' = true) {M e E1 u p : ℝ} (e0 : 0 < e) (he1 : e < 1) (me2 : e2.Mem (e ^ 2)) (mu : u'.Mem u) (mp : p'.Mem p) (hu : 0 < u'.a) (hp : 0 < p'.a)
    (hup : e * sin M = u * p) (M0 : 0 < M) (E0 : 0 < E1) (E2 : E1 < 2 * π) (mf : f'.Mem (keplerFi M e E1)) (mp1 : p1'.Mem (1 - e * cos E1)) (hp1 : 0 < p1'.a) (mq1 : q1'.Mem (e * sin E1)) (hlow : ∀ x, (⟨10485, 2097152⟩ : Iv).Mem (1 - e * cos x)) :
    Close M e E1 ∨ Far M e E1 ∨ ∃ E2, danby M e E1 = some E2 ∧ Close M e E2 := by
  unfold startEnd at h
  simp only at h
  rw [Bool.or_eq_true, Bool.or_eq_true] at h
  rcases h with (h | h) | h
  · exact .inl (closeI_sound h mf mp1.1)
  · right; left
    simp only [Bool.and_eq_true, decide_eq_true_eq] at h
    obtain ⟨⟨⟨h1, h2⟩, h3⟩, h4⟩ := h
    have k1 : (43981471744 : ℝ) ≤ (u'.a : ℝ) * p'.a := by exact_mod_cast h1
    have ua : (0 : ℝ) < u'.a := by exact_mod_cast hu
    have pa : (0 : ℝ) < p'.a := by exact_mod_cast hp
    have k2 : (u'.a : ℝ) * p'.a ≤ u * 1048576 * (p * 1048576) := mul_le_mul mu.1 mp.1 pa.le (ua.le.trans mu.1)
    have k3 : 1 / 25 ≤ e * sin M := by rw [hup]; linarith
    have k4 : e * sin M ≤ M := by
      have s0 : 0 ≤ sin M := by
        by_contra hs
        push Not at hs
        have := mul_neg_of_pos_of_neg e0 hs
        linarith
      have := mul_le_mul_of_nonneg_right he1.le s0
      linarith [sin_le M0.le]
    have k5 := le_mem me2 h2
    have k6 : 93 / 100 ≤ e := by
      by_contra hc
      push Not at hc
      have : e ^ 2 < (93 / 100) ^ 2 := pow_lt_pow_left₀ hc e0.le (by norm_num)
      push_cast at k5
      linarith
    have k7 := le_mem mf h3
    have k8 := le_mem mq1 h4
    push_cast at k7 k8
    refine ⟨k6, k3.trans k4, E0, ?_, by linarith⟩
    by_contra hc
    push Not at hc
    have : sin (E1 - π) > 0 := sin_pos_of_pos_of_lt_pi (by linarith) (by linarith)
    rw [sin_sub_pi] at this
    have := mul_neg_of_pos_of_neg e0 (by linarith : sin E1 < 0)
    linarith
  · right; right
    have p0 := mem_pos mp1 hp1
    have mip := mem_inv mp1 hp1
    have mr1 : (ivOne.sub p1').Mem (e * cos E1) := by
      have := mem_sub mem_one mp1
      rwa [sub_sub_cancel] at this
    have mA := mem_mul mf mip
    obtain ⟨R, D, D2, ρ, δ, hk, hdan, mR, mD, mD2, hfi, -⟩ := stepI_sound h rfl rfl rfl p0 rfl (by rw [div_eq_mul_one_div]; exact mA) mip mq1 mr1
    refine ⟨_, hdan, ?_⟩
    have ms := mem_meet (slopeI_sound rfl rfl rfl mp1 mq1 mr1 mD mD2) (hlow (E1 + δ))
    unfold Close
    refine closeI_sound hk ?_ ms.1
    rw [hfi]
    exact mem_mul mR mf

/-- The first two corrections of the C solver on a box. -/
theorem startOk_sound {u' p' : Iv} (h : startOk u' p' = true) {M e u p : ℝ} (he : 3 / 5 ≤ e) (he1 : e ≤ 99 / 100) (M0 : 0 < M) (M1 : M < π) (hp : p = 1 - e * cos M) (hup : e * sin M = u * p) (mu : u'.Mem u) (mp : p'.Mem p) (hp' : 0 < p'.a) :
    Close M e M ∨ ∃ E1, danby M e M = some E1 ∧ M ≤ E1 ∧ E1 ≤ M + π ∧ (Close M e E1 ∨ Far M e E1 ∨ ∃ E2, danby M e E1 = some E2 ∧ Close M e E2) := by
  have e0 : 0 < e := by linarith
  have p0 := mem_pos mp hp'
  have s0 : 0 < sin M := sin_pos_of_pos_of_lt_pi M0 M1
  have u0 : 0 < u := by
    have := mul_pos e0 s0
    rw [hup] at this
    exact (pos_iff_pos_of_mul_pos this).mpr p0
  have hr : e * cos M = 1 - p := by rw [hp]; ring
  have me2 : ((ivOne.sub p').sq.add (u'.mul p').sq).Mem (e ^ 2) := by
    have : e ^ 2 = (1 - p) ^ 2 + (u * p) ^ 2 := by
      rw [← hr, ← hup]
      linear_combination -e ^ 2 * (sin_sq_add_cos_sq M)
    rw [this]
    exact mem_add (mem_sq (mem_sub mem_one mp)) (mem_sq (mem_mul mu mp))
  unfold startOk at h
  simp only at h
  generalize (ivOne.sub p').sq.add (u'.mul p').sq = e2 at *
  rw [Bool.or_eq_true, Bool.or_eq_true, Bool.or_eq_true, decide_eq_true_eq, decide_eq_true_eq, decide_eq_true_eq] at h
  rcases h with ((h | h) | h) | h
  · exfalso
    have h1 : (1027711 : ℝ) < e2.a := by exact_mod_cast h
    have h2 : e ^ 2 ≤ (99 / 100) ^ 2 := pow_le_pow_left₀ e0.le he1 2
    linarith [me2.1]
  · exfalso
    have h1 : (e2.b : ℝ) < 377487 := by exact_mod_cast h
    have h2 : (3 / 5) ^ 2 ≤ e ^ 2 := pow_le_pow_left₀ (by norm_num) he 2
    linarith [me2.2]
  · left
    unfold Close
    have hf : keplerFi M e M = -(u * p) := by unfold keplerFi; rw [hup]; ring
    rw [hf, ← hp]
    have h1 : 100 * (u'.b : ℝ) * u'.b ≤ 9 * p'.a * 1048576 := by exact_mod_cast h
    have h2 : u * 1048576 * (u * 1048576) ≤ (u'.b : ℝ) * u'.b := mul_le_mul mu.2 mu.2 (by positivity) (le_trans (by positivity) mu.2)
    have h3 : 100 * u ^ 2 ≤ 9 * p := by nlinarith [mp.1]
    have h4 := mul_le_mul_of_nonneg_right h3 (by positivity : 0 ≤ p ^ 2)
    linarith
  · right
    rw [Bool.and_eq_true, Bool.and_eq_true, Bool.and_eq_true, decide_eq_true_eq, decide_eq_true_eq, decide_eq_true_eq] at h
    obtain ⟨hu', hD, hdb, h⟩ := h
    have mD := startD_sound mu mp hu' hp'
    obtain ⟨D, hDd⟩ : ∃ D, D = 1 / u + u * (1 / (u ^ 2 + 2)) + (1 / p - 1) * (u * (1 / (u ^ 2 + 2) ^ 2)) * 2 / 3 := ⟨_, rfl⟩
    rw [← hDd] at mD
    have D0 := mem_pos mD hD
    have hstep := first_step hp (by rw [hup]; field_simp) p0 u0 hDd D0
    have md := mem_inv mD hD
    have hda : 0 ≤ (startD u' p').inv.a := by
      unfold Iv.inv
      refine Int.ediv_nonneg (by norm_num) ?_
      have : (0 : ℝ) ≤ (startD u' p').b := le_trans (by positivity) mD.2
      exact_mod_cast this
    generalize (startD u' p').inv = d' at *
    obtain ⟨x, hx⟩ : ∃ x, x = 1 / D := ⟨_, rfl⟩
    rw [← hx] at md hstep
    have x0 : 0 < x := by rw [hx]; positivity
    have hab : d'.a ≤ d'.b := by
      have : (d'.a : ℝ) ≤ d'.b := md.1.trans md.2
      exact_mod_cast this
    have xpi : x ≤ π := by
      have h1 := mem_le md hdb
      have := pi_gt_d20
      norm_num at this h1
      linarith
    have hF : ∀ y, keplerFi M e (M + y) = y - sin y + p * (sin y - u * cos y) := by
      intro y
      unfold keplerFi
      rw [sin_add]
      linear_combination (-cos y) * hup - (sin y) * hr
    have xa : (d'.a : ℝ) / 1048576 ≤ x := by rw [div_le_iff₀ (by norm_num)]; exact md.1
    have xb : x ≤ (d'.b : ℝ) / 1048576 := by rw [le_div_iff₀ (by norm_num)]; exact md.2
    have msa := mem_sinI d'.a hda (by omega)
    have msb := mem_sinI d'.b (by omega) (by omega)
    have mca := mem_cosI d'.a hda (by omega)
    have mcb := mem_cosI d'.b (by omega) (by omega)
    have mf : (⟨(((ivPt d'.a).sub (sinI d'.a)).add (p'.mul ((sinI d'.a).sub (u'.mul (cosI d'.a))))).a, (((ivPt d'.b).sub (sinI d'.b)).add (p'.mul ((sinI d'.b).sub (u'.mul (cosI d'.b))))).b⟩ : Iv).Mem (keplerFi M e (M + x)) := by
      have f1 := fi_mono (M := M) e0.le (by linarith : e ≤ 1) (by linarith : M + (d'.a : ℝ) / 1048576 ≤ M + x)
      have f2 := fi_mono (M := M) e0.le (by linarith : e ≤ 1) (by linarith : M + x ≤ M + (d'.b : ℝ) / 1048576)
      have g1 := mem_add (mem_sub (mem_pt d'.a) msa) (mem_mul mp (mem_sub msa (mem_mul mu mca)))
      have g2 := mem_add (mem_sub (mem_pt d'.b) msb) (mem_mul mp (mem_sub msb (mem_mul mu mcb)))
      rw [← hF] at g1 g2
      exact ⟨g1.1.trans (mul_le_mul_of_nonneg_right f1 (by norm_num)), (mul_le_mul_of_nonneg_right f2 (by norm_num)).trans g2.2⟩
    have mC := mem_cosR md hda (by omega) xpi
    have mS := mem_sinR md hda (by omega)
    have hlow : ∀ y, (⟨10485, 2097152⟩ : Iv).Mem (1 - e * cos y) := by
      intro y
      have h1 := mul_le_mul_of_nonneg_left (cos_le_one y) e0.le
      have h2 := mul_le_mul_of_nonneg_left (neg_one_le_cos y) e0.le
      constructor <;> push_cast <;> linarith
    have mp1 := mem_meet (j := ⟨10485, 2097152⟩) (x := 1 - e * cos (M + x)) (i := (ivOne.sub (cosR d' (cosI d'.a) (cosI d'.b))).add (p'.mul ((cosR d' (cosI d'.a) (cosI d'.b)).add (u'.mul (sinR d' (sinI d'.a) (sinI d'.b)))))) (by
      have : 1 - e * cos (M + x) = 1 - cos x + p * (cos x + u * sin x) := by
        rw [cos_add]
        linear_combination (-cos x) * hr + (sin x) * hup
      rw [this]
      exact mem_add (mem_sub mem_one mC) (mem_mul mp (mem_add mC (mem_mul mu mS)))) (hlow _)
    have mq1 : ((sinR d' (sinI d'.a) (sinI d'.b)).add (p'.mul ((u'.mul (cosR d' (cosI d'.a) (cosI d'.b))).sub (sinR d' (sinI d'.a) (sinI d'.b))))).Mem (e * sin (M + x)) := by
      have : e * sin (M + x) = sin x + p * (u * cos x - sin x) := by
        rw [sin_add]
        linear_combination (cos x) * hup + (sin x) * hr
      rw [this]
      exact mem_add mS (mem_mul mp (mem_sub (mem_mul mu mC) mS))
    refine ⟨M + x, hstep, by linarith, by linarith, ?_⟩
    exact startEnd_sound h e0 (by linarith) me2 mu mp hu' hp' hup M0 (by linarith) (by linarith) mf mp1 (by simp only [Iv.meet, max2_eq]; omega) mq1 hlow

/-- A box of `startCover` that contains the point. -/
theorem startCover_box (c : Cut) : ∀ {u' p' : Iv} {u p : ℝ}, startCover c u' p' = true → u'.Mem u → p'.Mem p → 0 < p'.a → p'.a ≤ p'.b → ∃ u2 p2 : Iv, startOk u2 p2 = true ∧ u2.Mem u ∧ p2.Mem p ∧ 0 < p2.a := by
  induction c with
  | o =>
    intro u' p' u p h h1 h2 h3 _
    exact ⟨u', p', h, h1, h2, h3⟩
  | z l r ihl ihr =>
    intro u' p' u p h h1 h2 h3 h4
    rw [startCover, Bool.and_eq_true] at h
    rcases mem_halves h1 with h1 | h1
    · exact ihl h.1 h1 h2 h3 h4
    · exact ihr h.2 h1 h2 h3 h4
  | x l r ihl ihr =>
    intro u' p' u p h h1 h2 h3 h4
    rw [startCover, Bool.and_eq_true] at h
    rcases mem_halves h2 with h2 | h2
    · exact ihl h.1 h1 h2 h3 (by simp only [Iv.lower]; omega)
    · exact ihr h.2 h1 h2 (by simp only [Iv.upper]; omega) (by simp only [Iv.upper]; omega)
  | s l r ihl ihr =>
    intro u' p' u p h
    rw [startCover] at h
    exact absurd h Bool.false_ne_true

/-- The first two corrections of the C solver, which starts at the mean anomaly. -/
theorem c_start {M e : ℝ} (he : 3 / 5 ≤ e) (he1 : e ≤ 99 / 100) (M0 : 0 < M) (M1 : M < π) :
    Close M e M ∨ ∃ E1, danby M e M = some E1 ∧ M ≤ E1 ∧ E1 ≤ M + π ∧ (Close M e E1 ∨ Far M e E1 ∨ ∃ E2, danby M e E1 = some E2 ∧ Close M e E2) := by
  have e0 : 0 < e := by linarith
  obtain ⟨p, hp⟩ : ∃ p, p = 1 - e * cos M := ⟨_, rfl⟩
  have p1 : 1 / 100 ≤ p := by
    have := mul_le_mul_of_nonneg_left (cos_le_one M) e0.le
    rw [hp]; linarith
  have p2 : p ≤ 2 := by
    have := mul_le_mul_of_nonneg_left (neg_one_le_cos M) e0.le
    rw [hp]; linarith
  have p0 : 0 < p := by linarith
  obtain ⟨u, hu⟩ : ∃ u, u = e * sin M / p := ⟨_, rfl⟩
  have hup : e * sin M = u * p := by rw [hu]; field_simp
  have s0 : 0 < sin M := sin_pos_of_pos_of_lt_pi M0 M1
  have u0 : 0 < u := by rw [hu]; positivity
  have hr : e * cos M = 1 - p := by rw [hp]; ring
  have hu7 : u ≤ 702 / 100 := by
    have h1 : (1 - p) ^ 2 + (u * p) ^ 2 = e ^ 2 := by
      rw [← hr, ← hup]
      linear_combination e ^ 2 * (sin_sq_add_cos_sq M)
    have h2 : e ^ 2 ≤ (99 / 100) ^ 2 := pow_le_pow_left₀ e0.le he1 2
    by_contra hc
    push Not at hc
    have h3 : (702 / 100 * p) ^ 2 < (u * p) ^ 2 := by
      refine pow_lt_pow_left₀ ?_ (by positivity) (by norm_num)
      exact mul_lt_mul_of_pos_right hc p0
    nlinarith [sq_nonneg (p - 100 / 5028)]
  obtain ⟨u2, q2, h1, h2, h3, h4⟩ := startCover_box (u := u) (p := p) startCut startCut_ok ⟨by push_cast; positivity, by push_cast; linarith⟩ ⟨by push_cast; linarith, by push_cast; linarith⟩ (by norm_num) (by norm_num)
  exact startOk_sound h1 he he1 M0 M1 hp hup h2 h3 h4

/-- The bound on the residual for `farCut`. -/
theorem far_bound {e E : ℝ} (he : 93 / 100 ≤ e) (he1 : e ≤ 1) (h1 : 101 / 100 ≤ E) (h2 : E ≤ π) : E - e * sin E - 1 / 25 ≤ 164 / 100 * (1 - e * cos E) := by
  have hpi := pi_gt_d2
  have hpi2 := pi_lt_d2
  norm_num at hpi hpi2
  obtain ⟨y, hy⟩ : ∃ y, y = π - E := ⟨_, rfl⟩
  have hs : sin E = sin y := by rw [hy, sin_pi_sub]
  have hc : cos E = -cos y := by rw [hy, cos_pi_sub]; ring
  have y0 : 0 ≤ y := by rw [hy]; linarith
  have y1 : y ≤ 214 / 100 := by rw [hy]; linarith
  have hE : E = π - y := by rw [hy]; ring
  rw [hs, hc, hE]
  have s0 : 0 ≤ sin y := sin_nonneg_of_nonneg_of_le_pi y0 (by linarith)
  have hs3 := sin_ge_cube y y0
  have es : 93 / 100 * sin y ≤ e * sin y := mul_le_mul_of_nonneg_right he s0
  rcases le_total y (π / 2) with h | h
  · have c0 : 0 ≤ cos y := cos_nonneg_of_neg_pi_div_two_le_of_le (by linarith) h
    have ec : 93 / 100 * cos y ≤ e * cos y := mul_le_mul_of_nonneg_right he c0
    rcases le_total y (133 / 100) with h3 | h3
    · have := one_sub_sq_div_two_le_cos (x := y)
      nlinarith
    · have : y ^ 3 ≤ y * (158 / 100) ^ 2 := by
        have : y ^ 2 ≤ (158 / 100) ^ 2 := pow_le_pow_left₀ y0 (by linarith) 2
        nlinarith
      nlinarith
  · have c0 : cos y ≤ 0 := cos_nonpos_of_pi_div_two_le_of_le h (by linarith)
    have hc2 : π / 2 - y ≤ cos y := by
      have := sin_le (x := y - π / 2) (by linarith)
      rw [sin_sub_pi_div_two] at this
      linarith
    have ec : cos y ≤ e * cos y := by nlinarith
    have : y ^ 3 ≤ y * (214 / 100) ^ 2 := by
      have : y ^ 2 ≤ (214 / 100) ^ 2 := pow_le_pow_left₀ y0 y1 2
      nlinarith
    nlinarith

/-- A correction on the right of the solution. -/
theorem far_step {M e E : ℝ} (he1 : e ≤ 99 / 100) (h : Far M e E) : Close M e E ∨ ∃ E1, danby M e E = some E1 ∧ (Close M e E1 ∨ Far M e E1 ∨ Right M e E1) ∧ |keplerFi M e E1| ≤ |keplerFi M e E| / 3 := by
  obtain ⟨he, hM, E0, hpi, hf⟩ := h
  have e0 : 0 < e := by linarith
  rcases le_total (E ^ 2) (26 / 25) with h2 | h2
  · rcases danby_right M e E (by linarith) (by linarith) (by linarith) ⟨E0, h2, hf⟩ with h | ⟨E1, k1, k2, k3⟩
    · exact .inl h
    · exact .inr ⟨E1, k1, k2.imp id .inr, k3⟩
  · have hE1 : 1019803 / 1000000 ≤ E := by
      by_contra hc
      push Not at hc
      have := pow_lt_pow_left₀ hc E0.le (by norm_num : (2 : ℕ) ≠ 0)
      norm_num at this
      linarith
    have hpi2 := pi_lt_d20
    norm_num at hpi2
    have p0 : 0 < 1 - e * cos E := by
      have := mul_le_mul_of_nonneg_left (cos_le_one E) e0.le
      linarith
    have ha : keplerFi M e E / (1 - e * cos E) ≤ 164 / 100 := by
      rw [div_le_iff₀ p0]
      have := far_bound he (by linarith) (by linarith : 101 / 100 ≤ E) hpi
      unfold keplerFi
      linarith
    obtain ⟨e2, E2, A2, k0, k1, k2, k3, k4, k5⟩ := farCover_box (e := e) (E := E) (a := keplerFi M e E / (1 - e * cos E)) farCut farCut_ok ⟨by push_cast; linarith, by push_cast; linarith⟩ ⟨by push_cast; linarith, by push_cast; linarith⟩
      ⟨by push_cast; have := div_nonneg hf p0.le; positivity, by push_cast; linarith⟩ (by norm_num) (by norm_num) (by norm_num)
    rcases farOk_sound k0 k1 k2 k3 k4 k5 e0 (by linarith) hM hpi rfl hf with h | ⟨E1, m1, m2, m3, m4, m5⟩
    · exact .inl h
    · exact .inr ⟨E1, m1, m5.elim (fun h => .inr (.inl ⟨he, hM, m2, m3.trans hpi, h⟩)) .inl, m4⟩

/-- Up to whole turns and reflection: close to the solution, or on the right of it, perhaps far from it. -/
def OnWay (M e E : ℝ) : Prop :=
  ∃ (k : ℤ) (σ M0 E0 : ℝ), (σ = 1 ∨ σ = -1) ∧ M = k * (2 * π) + σ * M0 ∧ E = k * (2 * π) + σ * E0 ∧ (Close M0 e E0 ∨ Far M0 e E0 ∨ (0 ≤ M0 ∧ Right M0 e E0))

theorem way_of_track {M e E : ℝ} (h : OnTrack M e E) : OnWay M e E := by
  obtain ⟨k, σ, M0, E0, hσ, hM, hE, h⟩ := h
  exact ⟨k, σ, M0, E0, hσ, hM, hE, h.imp id .inr⟩

theorem way_step {M e E : ℝ} (he : 3 / 5 ≤ e) (he1 : e ≤ 99 / 100) (h : OnWay M e E) : ∃ E', danby M e E = some E' ∧ OnWay M e E' ∧ |keplerFi M e E'| ≤ |keplerFi M e E| / 3 := by
  obtain ⟨k, σ, M0, E0, hσ, hM, hE, h⟩ := h
  have key : ∃ E1, danby M0 e E0 = some E1 ∧ (Close M0 e E1 ∨ Far M0 e E1 ∨ (0 ≤ M0 ∧ Right M0 e E1)) ∧ |keplerFi M0 e E1| ≤ |keplerFi M0 e E0| / 3 := by
    have near : Close M0 e E0 → ∃ E1, danby M0 e E0 = some E1 ∧ (Close M0 e E1 ∨ Far M0 e E1 ∨ (0 ≤ M0 ∧ Right M0 e E1)) ∧ |keplerFi M0 e E1| ≤ |keplerFi M0 e E0| / 3 := by
      intro h
      obtain ⟨E1, k1, k2, k3⟩ := danby_near M0 e E0 (by linarith) (by linarith) h
      exact ⟨E1, k1, .inl k2, k3.trans (by linarith [abs_nonneg (keplerFi M0 e E0)])⟩
    rcases h with h | h | ⟨h0, h⟩
    · exact near h
    · rcases far_step he1 h with h2 | ⟨E1, k1, k2, k3⟩
      · exact near h2
      · exact ⟨E1, k1, k2.imp id (Or.imp id fun h3 => ⟨by linarith [h.2.1], h3⟩), k3⟩
    · rcases danby_right M0 e E0 he (by linarith) h0 h with h | ⟨E1, k1, k2, k3⟩
      · exact near h
      · exact ⟨E1, k1, k2.imp id fun h => .inr ⟨h0, h⟩, k3⟩
  obtain ⟨E1, k1, k2, k3⟩ := key
  refine ⟨k * (2 * π) + σ * E1, by rw [danby_sym k hσ hM hE, k1]; rfl, ⟨k, σ, M0, E1, hσ, hM, rfl, k2⟩, ?_⟩
  rw [fi_sym k hσ hM rfl, fi_sym k hσ hM hE]
  exact k3

theorem close_bound {M e E : ℝ} (e0 : 0 ≤ e) (he1 : e ≤ 1) (h : Close M e E) : |keplerFi M e E| ≤ 17 / 20 := by
  have h1 : 1 - e * cos E ≤ 2 := by
    have := mul_le_mul_of_nonneg_left (neg_one_le_cos E) e0
    linarith
  have h2 : 0 ≤ 1 - e * cos E := by
    have := mul_le_mul_of_nonneg_left (cos_le_one E) e0
    linarith
  have h3 : (1 - e * cos E) ^ 3 ≤ 2 ^ 3 := pow_le_pow_left₀ h2 h1 3
  unfold Close at h
  refine abs_le_of_sq_le_sq (by linarith) (by norm_num)

/-- The mean anomaly as a guess: after at most two corrections the anomaly is on the way. -/
theorem mean_start (M e : ℝ) (he : 3 / 5 ≤ e) (he1 : e ≤ 99 / 100) : (OnWay M e M ∧ |keplerFi M e M| ≤ 17 / 20) ∨
    ∃ E1, danby M e M = some E1 ∧ ((OnWay M e E1 ∧ |keplerFi M e E1| ≤ 415 / 100) ∨ ∃ E2, danby M e E1 = some E2 ∧ OnWay M e E2 ∧ |keplerFi M e E2| ≤ 17 / 20) := by
  obtain ⟨k, hk⟩ : ∃ k : ℤ, -π < M - k * (2 * π) ∧ M - k * (2 * π) ≤ π := by
    have h2 : 0 < 2 * π := by positivity
    refine ⟨toIocDiv h2 (-π) M, ?_⟩
    have := sub_toIocDiv_zsmul_mem_Ioc h2 (-π) M
    simp only [zsmul_eq_mul] at this
    exact ⟨this.1, by have := this.2; linarith⟩
  have e0 : 0 < e := by linarith
  have hpi2 := pi_lt_d2
  norm_num at hpi2
  have go : ∀ (σ M0 : ℝ), (σ = 1 ∨ σ = -1) → M = k * (2 * π) + σ * M0 → 0 < M0 → M0 < π → (OnWay M e M ∧ |keplerFi M e M| ≤ 17 / 20) ∨
      ∃ E1, danby M e M = some E1 ∧ ((OnWay M e E1 ∧ |keplerFi M e E1| ≤ 415 / 100) ∨ ∃ E2, danby M e E1 = some E2 ∧ OnWay M e E2 ∧ |keplerFi M e E2| ≤ 17 / 20) := by
    intro σ M0 hσ hM h0 h1
    rcases c_start he he1 h0 h1 with h | ⟨E1, k1, a1, a2, h⟩
    · left
      refine ⟨⟨k, σ, M0, M0, hσ, hM, hM, .inl h⟩, ?_⟩
      rw [fi_sym k hσ hM hM]
      exact close_bound e0.le (by linarith) h
    · right
      refine ⟨k * (2 * π) + σ * E1, by rw [danby_sym k hσ hM hM, k1]; rfl, ?_⟩
      have hb : |keplerFi M0 e E1| ≤ 415 / 100 := by
        have s1 := mul_le_mul_of_nonneg_left (sin_le_one E1) e0.le
        have s2 := mul_le_mul_of_nonneg_left (neg_one_le_sin E1) e0.le
        unfold keplerFi
        rw [abs_le]
        constructor <;> linarith
      rcases h with h | h | ⟨E2, k2, h⟩
      · left
        refine ⟨⟨k, σ, M0, E1, hσ, hM, rfl, .inl h⟩, ?_⟩
        rw [fi_sym k hσ hM rfl]
        exact hb
      · left
        refine ⟨⟨k, σ, M0, E1, hσ, hM, rfl, .inr (.inl h)⟩, ?_⟩
        rw [fi_sym k hσ hM rfl]
        exact hb
      · right
        refine ⟨k * (2 * π) + σ * E2, by rw [danby_sym k hσ hM rfl, k2]; rfl, ⟨k, σ, M0, E2, hσ, hM, rfl, .inl h⟩, ?_⟩
        rw [fi_sym k hσ hM rfl]
        exact close_bound e0.le (by linarith) h
  have zero : sin M = 0 → OnWay M e M ∧ |keplerFi M e M| ≤ 17 / 20 := by
    intro h
    have hf : keplerFi M e M = 0 := by unfold keplerFi; rw [h]; ring
    refine ⟨⟨0, 1, M, M, .inl rfl, by simp, by simp, .inl ?_⟩, by rw [hf]; norm_num⟩
    unfold Close
    rw [hf]
    have : 0 ≤ 1 - e * cos M := by nlinarith [cos_le_one M]
    have : 0 ≤ (1 - e * cos M) ^ 3 := by positivity
    linarith
  rcases lt_trichotomy (M - k * (2 * π)) 0 with h | h | h
  · exact go (-1) (-(M - k * (2 * π))) (.inr rfl) (by ring) (by linarith) (by linarith)
  · left
    refine zero ?_
    have : M = 0 + k * (2 * π) := by linarith
    rw [this, sin_add_int_mul_two_pi, sin_zero]
  · rcases lt_or_eq_of_le hk.2 with h2 | h2
    · exact go 1 (M - k * (2 * π)) (.inl rfl) (by ring) h h2
    · left
      refine zero ?_
      have : M = π + k * (2 * π) := by linarith
      rw [this, sin_add_int_mul_two_pi, sin_pi]

end Radvel
