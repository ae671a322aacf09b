import Verif.Lemmas.KeplerFarBox
import Verif.Lemmas.KeplerTrig
import Mathlib.Analysis.Real.Pi.Bounds

/-! # What positive answers of `farOk` and `startOk` mean -/

namespace Radvel
open Iv Real

theorem mem_divn {i : Iv} {x : ℝ} (h : i.Mem x) (n : Int) (hn : 0 < n) : (i.divn n).Mem (x / n) := by
  have n0 : (0 : ℝ) < n := by exact_mod_cast hn
  unfold Mem divn
  constructor
  · have := div_le i.a n hn
    rw [div_mul_eq_mul_div, le_div_iff₀ n0]
    exact this.trans h.1
  · have := le_up i.b n hn
    rw [div_mul_eq_mul_div, div_le_iff₀ n0]
    exact h.2.trans this

theorem mem_neg {i : Iv} {x : ℝ} (h : i.Mem x) : i.neg.Mem (-x) := by
  unfold Mem neg
  push_cast
  constructor <;> linarith [h.1, h.2]

theorem mem_pt (x : Int) : (ivPt x).Mem ((x : ℝ) / 1048576) := by
  unfold Mem ivPt
  constructor <;> simp

theorem mem_sinI (x : Int) (h0 : 0 ≤ x) (h1 : x ≤ 3303014) : (sinI x).Mem (sin ((x : ℝ) / 1048576)) := by
  obtain ⟨y, hy⟩ : ∃ y, y = (x : ℝ) / 1048576 := ⟨_, rfl⟩
  have hx : (x : ℝ) = y * 1048576 := by rw [hy]; ring
  rw [← hy]
  have x0 : (0 : ℝ) ≤ x := by exact_mod_cast h0
  have x1 : (x : ℝ) ≤ 3303014 := by exact_mod_cast h1
  have y0 : 0 ≤ y := by linarith
  have y1 : y ≤ 315 / 100 := by linarith
  obtain ⟨n, hn⟩ : ∃ n : Int, n = x * (11002193422793946610709248869714169050762871437509534265097570744858130231643340800 - (x * x) * (1667739437652008838799588203636656703681315084017953611252107103436800 - (x * x) * (75840009124113241286958700749740123850702506570903715840 - (x * x) * (1642287773352179259290111699117571330539520 - (x * x) * (20745167064587036637957980160 - (x * x) * (171523813933056 - (x * x))))))) := ⟨_, rfl⟩
  have hp : (n : ℝ) = 11002193422793946610709248869714169050762871437509534265097570744858130231643340800 * ((y - y ^ 3 / 6 + y ^ 5 / 120 - y ^ 7 / 5040 + y ^ 9 / 362880 - y ^ 11 / 39916800 + y ^ 13 / 6227020800) * 1048576) := by
    rw [hn]
    push_cast
    rw [hx]
    ring
  have k1 := div_le n 11002193422793946610709248869714169050762871437509534265097570744858130231643340800 (by norm_num)
  have k2 := le_up n 11002193422793946610709248869714169050762871437509534265097570744858130231643340800 (by norm_num)
  have h2 := sin_le_thirteen y y0
  have h3 := sin_ge_fifteen y y0
  have h4 : y ^ 15 ≤ (315 / 100) ^ 15 := by gcongr
  have h5 : y ^ 15 / 1307674368000 * 1048576 ≤ 24 := by
    have : ((315 / 100) ^ 15 : ℝ) / 1307674368000 * 1048576 ≤ 24 := by norm_num
    linarith
  have hs : sinI x = ⟨n / 11002193422793946610709248869714169050762871437509534265097570744858130231643340800 - 24, -((-n) / 11002193422793946610709248869714169050762871437509534265097570744858130231643340800)⟩ := by
    rw [hn]; rfl
  rw [hs]
  rw [hp] at k1 k2
  unfold Mem
  push_cast at k1 k2 ⊢
  constructor <;> linarith

theorem mem_cosI (x : Int) (h0 : 0 ≤ x) (h1 : x ≤ 3303014) : (cosI x).Mem (cos ((x : ℝ) / 1048576)) := by
  obtain ⟨y, hy⟩ : ∃ y, y = (x : ℝ) / 1048576 := ⟨_, rfl⟩
  have hx : (x : ℝ) = y * 1048576 := by rw [hy]; ring
  rw [← hy]
  have x0 : (0 : ℝ) ≤ x := by exact_mod_cast h0
  have x1 : (x : ℝ) ≤ 3303014 := by exact_mod_cast h1
  have y0 : 0 ≤ y := by linarith
  have y1 : y ≤ 315 / 100 := by linarith
  obtain ⟨n, hn⟩ : ∃ n : Int, n = 169358554391636025076922301860367998251977357683758951166719090783991913744547518210701996851200 - (x * x) * (77015353959557626274964742087999183355340100062566739855682995214006911621503385600 - (x * x) * (5837088031782030935798558712728298462884602794062837639382374862028800 - (x * x) * (176960021289597563002903635082726955651639181998775336960 - (x * x) * (2874003603366313703757695473455749828444160 - (x * x) * (29043233890421851293141172224 - (x * x) * (200111116255232 - (x * x))))))) := ⟨_, rfl⟩
  have hp : (n : ℝ) = 161512903586994195057794858799331663372018201526411963621825304779045022720859068117811200 * ((1 - y ^ 2 / 2 + y ^ 4 / 24 - y ^ 6 / 720 + y ^ 8 / 40320 - y ^ 10 / 3628800 + y ^ 12 / 479001600 - y ^ 14 / 87178291200) * 1048576) := by
    rw [hn]
    push_cast
    rw [hx]
    ring
  have k1 := div_le n 161512903586994195057794858799331663372018201526411963621825304779045022720859068117811200 (by norm_num)
  have k2 := le_up n 161512903586994195057794858799331663372018201526411963621825304779045022720859068117811200 (by norm_num)
  have h2 := cos_ge_fourteen y y0
  have h3 := cos_le_sixteen y y0
  have h4 : y ^ 16 ≤ (315 / 100) ^ 16 := by gcongr
  have h5 : y ^ 16 / 20922789888000 * 1048576 ≤ 5 := by
    have : ((315 / 100) ^ 16 : ℝ) / 20922789888000 * 1048576 ≤ 5 := by norm_num
    linarith
  have hs : cosI x = ⟨n / 161512903586994195057794858799331663372018201526411963621825304779045022720859068117811200, -((-n) / 161512903586994195057794858799331663372018201526411963621825304779045022720859068117811200) + 5⟩ := by
    rw [hn]; rfl
  rw [hs]
  rw [hp] at k1 k2
  unfold Mem
  push_cast at k1 k2 ⊢
  constructor <;> linarith

theorem half_pi_units : (1647099 : ℝ) / 1048576 ≤ π / 2 ∧ π / 2 ≤ 1647100 / 1048576 := by
  have h1 := pi_gt_d20
  have h2 := pi_lt_d20
  norm_num at h1 h2 ⊢
  constructor <;> linarith

theorem mem_sinR {E : Iv} {x : ℝ} (h : E.Mem x) (h0 : 0 ≤ E.a) (h1 : E.b ≤ 3303014) : (sinR E (sinI E.a) (sinI E.b)).Mem (sin x) := by
  obtain ⟨p1, p2⟩ := half_pi_units
  have a0 : (0 : ℝ) ≤ E.a := by exact_mod_cast h0
  have b1 : (E.b : ℝ) ≤ 3303014 := by exact_mod_cast h1
  have hab : E.a ≤ E.b := by
    have : (E.a : ℝ) ≤ E.b := h.1.trans h.2
    exact_mod_cast this
  have ma := mem_sinI E.a h0 (by omega)
  have mb := mem_sinI E.b (by omega) h1
  have xa : (E.a : ℝ) / 1048576 ≤ x := by rw [div_le_iff₀ (by norm_num)]; exact h.1
  have xb : x ≤ (E.b : ℝ) / 1048576 := by rw [le_div_iff₀ (by norm_num)]; exact h.2
  have ya : 0 ≤ (E.a : ℝ) / 1048576 := by positivity
  have yb : (E.b : ℝ) / 1048576 ≤ 315 / 100 := by rw [div_le_iff₀ (by norm_num)]; linarith
  have hpi := pi_gt_d2
  norm_num at hpi
  have up : ∀ {y z : ℝ}, 0 ≤ y → y ≤ z → z ≤ π / 2 → sin y ≤ sin z := fun h1 h2 h3 => sin_le_sin_of_le_of_le_pi_div_two (by linarith) h3 h2
  have down : ∀ {y z : ℝ}, π / 2 ≤ y → y ≤ z → z ≤ 315 / 100 → sin z ≤ sin y := by
    intro y z h1 h2 h3
    have := sin_le_sin_of_le_of_le_pi_div_two (x := π - z) (y := π - y) (by linarith) (by linarith) (by linarith)
    rwa [sin_pi_sub, sin_pi_sub] at this
  unfold sinR
  split_ifs with c1 c2
  · have hb : (E.b : ℝ) / 1048576 ≤ π / 2 := by
      refine le_trans ?_ p1
      have : (E.b : ℝ) ≤ 1647099 := by exact_mod_cast c1
      linarith
    have e1 := up ya xa (xb.trans hb)
    have e2 := up (ya.trans xa) xb hb
    exact ⟨by linarith [ma.1], by linarith [mb.2]⟩
  · have ha : π / 2 ≤ (E.a : ℝ) / 1048576 := by
      refine p2.trans ?_
      have : ((1647100 : Int) : ℝ) ≤ E.a := by exact_mod_cast (by omega : (1647100 : Int) ≤ E.a)
      push_cast at this
      linarith
    have e1 := down ha xa (xb.trans yb)
    have e2 := down (ha.trans xa) xb yb
    exact ⟨by linarith [mb.1], by linarith [ma.2]⟩
  · refine ⟨?_, by push_cast; linarith [sin_le_one x]⟩
    rw [min2_eq]
    push_cast
    rcases le_total x (π / 2) with hx | hx
    · exact (min_le_left _ _).trans (by linarith [ma.1, up ya xa hx])
    · exact (min_le_right _ _).trans (by linarith [mb.1, down hx xb yb])

theorem mem_cosR {E : Iv} {x : ℝ} (h : E.Mem x) (h0 : 0 ≤ E.a) (h1 : E.b ≤ 3303014) (hx : x ≤ π) : (cosR E (cosI E.a) (cosI E.b)).Mem (cos x) := by
  obtain ⟨p1, -⟩ := half_pi_units
  have hpi := pi_gt_d20
  norm_num at hpi
  have a0 : (0 : ℝ) ≤ E.a := by exact_mod_cast h0
  have hab : E.a ≤ E.b := by
    have : (E.a : ℝ) ≤ E.b := h.1.trans h.2
    exact_mod_cast this
  have ma := mem_cosI E.a h0 (by omega)
  have mb := mem_cosI E.b (by omega) h1
  have xa : (E.a : ℝ) / 1048576 ≤ x := by rw [div_le_iff₀ (by norm_num)]; exact h.1
  have xb : x ≤ (E.b : ℝ) / 1048576 := by rw [le_div_iff₀ (by norm_num)]; exact h.2
  have ya : 0 ≤ (E.a : ℝ) / 1048576 := by positivity
  have e1 := cos_le_cos_of_nonneg_of_le_pi ya hx xa
  refine ⟨?_, by simp only [cosR]; linarith [ma.2]⟩
  simp only [cosR]
  split_ifs with c
  · have hb : (E.b : ℝ) / 1048576 ≤ π := by
      have : (E.b : ℝ) ≤ 3294198 := by exact_mod_cast c
      rw [div_le_iff₀ (by norm_num)]
      linarith
    have e2 := cos_le_cos_of_nonneg_of_le_pi (ya.trans xa) hb xb
    linarith [mb.1]
  · push_cast
    linarith [neg_one_le_cos x]

/-- The factor of the residual, without the remainder. -/
theorem step_main {f p q r a t s ka B d : ℝ} (p0 : 0 < p) (ha : a = f / p) (ht : t = a * q * (1 / p)) (t2 : t < 2) (hs : s = t / (2 - t)) (hk : ka = r * (1 / p) * (a * (1 + s)) ^ 2 / 6) (hB : B = 1 - s + ka) (B0 : 0 < B)
    (hd : d = -(a * (1 / B))) :
    f + p * d + q * d ^ 2 / 2 + r * d ^ 3 / 6 = f * ((s ^ 2 - (1 + s) * ka) * (1 / B) ^ 2 * (s * (1 / (1 + s)) - ka * (1 + s + 1 / B) * (1 / (1 + s)) ^ 2)) := by
  have h2 : 0 < 2 - t := by linarith
  have hs1 : 1 + s = 2 / (2 - t) := by rw [hs]; field_simp; ring
  have s0 : 0 < 1 + s := by rw [hs1]; positivity
  have hf : f = a * p := by rw [ha]; field_simp
  rcases eq_or_ne a 0 with h | h
  · have hd0 : d = 0 := by rw [hd, h]; ring
    rw [hf, hd0, h]; ring
  · have ht' : t = 2 * s / (1 + s) := by rw [hs1, hs]; field_simp
    have hq : q = 2 * s / (1 + s) * p / a := by rw [← ht', ht]; field_simp
    have hr : r = 6 * ka * p / (a * (1 + s)) ^ 2 := by rw [hk]; field_simp
    rw [hf, hq, hr, hd]
    field_simp
    rw [hB]
    ring

/-- The denominators of the correction. -/
theorem step_den {f p q r a t s ka B : ℝ} (p0 : 0 < p) (ha : a = f / p) (ht : t = a * q * (1 / p)) (t2 : t < 2) (hs : s = t / (2 - t)) (hk : ka = r * (1 / p) * (a * (1 + s)) ^ 2 / 6) (hB : B = 1 - s + ka) :
    den1 f p q = p * (1 / (1 + s)) ∧ 0 < 1 + s ∧ den2 f p q r = p * B := by
  have h2 : 0 < 2 - t := by linarith
  have hs1 : 1 + s = 2 / (2 - t) := by rw [hs]; field_simp; ring
  have s0 : 0 < 1 + s := by rw [hs1]; positivity
  have hf : f = a * p := by rw [ha]; field_simp
  have htp : a * q = t * p := by rw [ht]; field_simp
  have hD1 : den1 f p q = p * (1 / (1 + s)) := by
    rw [den1_eq, hf, (by ring : a * p * q = a * q * p), htp, hs1]
    field_simp
  refine ⟨hD1, s0, ?_⟩
  have ht' : t * (1 + s) = 2 * s := by rw [hs1, hs]; field_simp
  rw [den2_eq, hD1, hf, hB, hk]
  have e1 : a * p * q / (2 * (p * (1 / (1 + s)))) = p * s := by
    rw [(by ring : a * p * q = a * q * p), htp]
    field_simp
    linear_combination ht'
  rw [e1]
  field_simp

/-- A correction of the Kepler solvers on a box. -/
theorem stepI_sound {A ip q' r' : Iv} {k : Iv → Iv → Iv → Bool} (h : stepI A ip q' r' k = true) {M e E p q r a : ℝ} (hp : p = 1 - e * cos E) (hq : q = e * sin E) (hr : r = e * cos E) (p0 : 0 < p) (ha : a = keplerFi M e E / p)
    (mA : A.Mem a) (mip : ip.Mem (1 / p)) (mq : q'.Mem q) (mr : r'.Mem r) :
    ∃ (R d d2 : Iv) (ρ δ : ℝ), k R d d2 = true ∧ danby M e E = some (E + δ) ∧ R.Mem ρ ∧ d.Mem δ ∧ d2.Mem (δ ^ 2) ∧ keplerFi M e (E + δ) = ρ * keplerFi M e E ∧ ((0 ≤ a → δ ≤ 0)) := by
  unfold stepI at h
  simp only at h
  split_ifs at h with h1 h12
  obtain ⟨h2, hs1a⟩ := h12
  obtain ⟨f, hf⟩ : ∃ f, f = keplerFi M e E := ⟨_, rfl⟩
  rw [← hf] at ha
  obtain ⟨t, ht⟩ : ∃ t, t = a * q * (1 / p) := ⟨_, rfl⟩
  have mt : ((A.mul q').mul ip).Mem t := ht ▸ mem_mul (mem_mul mA mq) mip
  generalize (A.mul q').mul ip = T at *
  have t2 : t < 2 := by
    have : (T.b : ℝ) < 2097152 := by exact_mod_cast h1
    linarith [mt.2]
  have h2t : 0 < 2 - t := by linarith
  obtain ⟨s, hs⟩ : ∃ s, s = t / (2 - t) := ⟨_, rfl⟩
  have ms : (⟨T.a * 1048576 / (2097152 - T.a), -((-(T.b * 1048576)) / (2097152 - T.b))⟩ : Iv).Mem s := by
    have hTab : (T.a : ℝ) ≤ T.b := mt.1.trans mt.2
    have hTab' : T.a ≤ T.b := by exact_mod_cast hTab
    have ga : (0 : ℝ) < 2097152 - T.a := by
      have : (T.b : ℝ) < 2097152 := by exact_mod_cast h1
      linarith
    have gb : (0 : ℝ) < 2097152 - T.b := by
      have : (T.b : ℝ) < 2097152 := by exact_mod_cast h1
      linarith
    constructor
    · have := div_le (T.a * 1048576) (2097152 - T.a) (by omega)
      push_cast at this
      have h3 : ((T.a * 1048576 / (2097152 - T.a) : Int) : ℝ) ≤ T.a * 1048576 / (2097152 - T.a) := by
        rw [le_div_iff₀ ga]; exact this
      refine h3.trans ?_
      rw [hs, div_mul_eq_mul_div, div_le_div_iff₀ ga h2t]
      linarith [mt.1]
    · have := le_up (T.b * 1048576) (2097152 - T.b) (by omega)
      push_cast at this ⊢
      have h3 : (T.b : ℝ) * 1048576 / (2097152 - T.b) ≤ -((-(T.b * 1048576) / (2097152 - T.b) : Int) : ℝ) := by
        rw [div_le_iff₀ gb]; exact this
      refine le_trans ?_ h3
      rw [hs, div_mul_eq_mul_div, div_le_div_iff₀ h2t gb]
      linarith [mt.2]
  generalize (⟨T.a * 1048576 / (2097152 - T.a), -((-(T.b * 1048576)) / (2097152 - T.b))⟩ : Iv) = I at *
  have ms1 := mem_add mem_one ms
  obtain ⟨ka, hk⟩ : ∃ ka, ka = r * (1 / p) * (a * (1 + s)) ^ 2 / 6 := ⟨_, rfl⟩
  have mk : (((r'.mul ip).mul (A.mul (ivOne.add I)).sq).divn 6).Mem ka := by
    have := mem_divn (mem_mul (mem_mul mr mip) (mem_sq (mem_mul mA ms1))) 6 (by norm_num)
    rw [hk]
    exact_mod_cast this
  generalize ((r'.mul ip).mul (A.mul (ivOne.add I)).sq).divn 6 = K at *
  obtain ⟨B, hB⟩ : ∃ B, B = 1 - s + ka := ⟨_, rfl⟩
  have mB : ((ivOne.sub I).add K).Mem B := hB ▸ mem_add (mem_sub mem_one ms) mk
  generalize (ivOne.sub I).add K = IB at *
  have B0 : 0 < B := mem_pos mB h2
  have miB := mem_inv mB h2
  obtain ⟨d, hd⟩ : ∃ d, d = -(a * (1 / B)) := ⟨_, rfl⟩
  have md : (A.mul IB.inv).neg.Mem d := hd ▸ mem_neg (mem_mul mA miB)
  obtain ⟨hD1, s0, hD2⟩ := step_den p0 ha ht t2 hs hk hB
  have hdan : danby M e E = some (E + d) := by
    rw [danby_eq M e E (by rw [← hp]; exact p0) (by rw [← hf, ← hp, ← hq, hD1]; positivity) (by rw [← hf, ← hp, ← hq, ← hr, hD2]; positivity), ← hf, ← hp, ← hq, ← hr, hD2, hd, ha]
    congr 2
    field_simp
  obtain ⟨w1, a1, a2, a3⟩ := cos_factor_four d
  obtain ⟨w2, b1, b2, b3⟩ := sin_factor_five d
  have md2 := mem_sq md
  generalize (A.mul IB.inv).neg = Id at *
  generalize Id.sq = Id2 at *
  have mw1 : (⟨(ivOne.sub (Id2.divn 30)).a, 1048576⟩ : Iv).Mem w1 := by
    have := (mem_sub mem_one (mem_divn md2 30 (by norm_num))).1
    push_cast at this
    exact ⟨this.trans (by linarith), by push_cast; linarith⟩
  have mw2 : (⟨(ivOne.sub (Id2.divn 42)).a, 1048576⟩ : Iv).Mem w2 := by
    have := (mem_sub mem_one (mem_divn md2 42 (by norm_num))).1
    push_cast at this
    exact ⟨this.trans (by linarith), by push_cast; linarith⟩
  have mi1 := mem_inv ms1 hs1a
  have mR : (stepR ip q' r' I (ivOne.add I) K IB.inv (ivOne.add I).inv Id Id2).Mem
      ((s ^ 2 - (1 + s) * ka) * (1 / B) ^ 2 * (s * (1 / (1 + s)) - ka * (1 + s + 1 / B) * (1 / (1 + s)) ^ 2) + d * d ^ 2 * (1 / B * (1 / p)) * (q * w1 / 24 + r * d * w2 / 120)) := by
    unfold stepR
    have n1 := mem_divn (mem_mul mq mw1) 24 (by norm_num)
    have n2 := mem_divn (mem_mul (mem_mul mr md) mw2) 120 (by norm_num)
    push_cast at n1 n2
    exact mem_add (mem_mul (mem_mul (mem_sub (mem_sq ms) (mem_mul ms1 mk)) (mem_sq miB)) (mem_sub (mem_mul ms mi1) (mem_mul (mem_mul mk (mem_add ms1 miB)) (mem_sq mi1))))
      (mem_mul (mem_mul (mem_mul md md2) (mem_mul miB mip)) (mem_add n1 n2))
  refine ⟨_, _, _, _, d, h, hdan, mR, md, md2, ?_, ?_⟩
  · have hmain := step_main p0 ha ht t2 hs hk hB B0 hd
    have hfd : f = -(d * B * p) := by
      have : a = -(d * B) := by rw [hd]; field_simp
      rw [← neg_mul, ← this, ha]; field_simp
    have hrest : f * (d * d ^ 2 * (1 / B * (1 / p)) * (q * w1 / 24 + r * d * w2 / 120)) = -(q * (d ^ 4 / 24 * w1)) - r * (d ^ 5 / 120 * w2) := by
      rw [hfd]; field_simp; ring
    rw [← hf, add_mul, mul_comm _ f, mul_comm _ f, ← hmain, hrest]
    have hsum : keplerFi M e (E + d) = f + d - q * (cos d - 1) - r * sin d := by
      rw [hf, hq, hr]
      unfold keplerFi
      rw [sin_add]; ring
    rw [hsum, a3, b3, hp]
    have : r = 1 - p := by rw [hr, hp]; ring
    rw [← hr]
    ring
  · intro h0
    have : 0 ≤ a * (1 / B) := by positivity
    rw [hd]; linarith

theorem closeI_sound {f' p' : Iv} (h : closeI f' p' = true) {f p : ℝ} (mf : f'.Mem f) (mp : (p'.a : ℝ) ≤ p * 1048576) : 100 * f ^ 2 ≤ 9 * p ^ 3 := by
  unfold closeI at h
  rw [Bool.and_eq_true, decide_eq_true_eq, decide_eq_true_eq, max2_eq] at h
  obtain ⟨h1, h2⟩ := h
  have p0 : (0 : ℝ) < p'.a := by exact_mod_cast h1
  have h3 : 100 * ((max (-f'.a) f'.b : Int) * (max (-f'.a) f'.b : Int) : ℝ) * 1048576 ≤ 9 * (p'.a * p'.a * p'.a) := by exact_mod_cast h2
  have h4 : |f * 1048576| ≤ ((max (-f'.a) f'.b : Int) : ℝ) := by
    push_cast
    rw [abs_le]
    refine ⟨?_, mf.2.trans (le_max_right _ _)⟩
    have := le_max_left (-(f'.a : ℝ)) f'.b
    linarith [mf.1]
  generalize ((max (-f'.a) f'.b : Int) : ℝ) = m at *
  have h5 : (f * 1048576) ^ 2 ≤ m ^ 2 := by
    rw [← sq_abs]
    exact pow_le_pow_left₀ (abs_nonneg _) h4 2
  have h6 : (p'.a : ℝ) ^ 3 ≤ (p * 1048576) ^ 3 := pow_le_pow_left₀ p0.le mp 3
  nlinarith [h3, h5, h6]

/-- On the right of the solution, far from it. -/
theorem farOk_sound {e' E' A' : Iv} (h : farOk e' E' A' = true) {M e E a : ℝ} (me : e'.Mem e) (mE : E'.Mem E) (mA : A'.Mem a) (hE0 : 0 ≤ E'.a) (hE1 : E'.b ≤ 3303014) (e0 : 0 < e) (he1 : e < 1) (hM : 1 / 25 ≤ M) (hpi : E ≤ π)
    (ha : a = keplerFi M e E / (1 - e * cos E)) (hf : 0 ≤ keplerFi M e E) :
    Close M e E ∨ ∃ E1, danby M e E = some E1 ∧ 0 < E1 ∧ E1 ≤ E ∧ |keplerFi M e E1| ≤ |keplerFi M e E| / 3 ∧ (0 ≤ keplerFi M e E1 ∨ Close M e E1) := by
  obtain ⟨p, hp⟩ : ∃ p, p = 1 - e * cos E := ⟨_, rfl⟩
  obtain ⟨q, hq⟩ : ∃ q, q = e * sin E := ⟨_, rfl⟩
  obtain ⟨r, hr⟩ : ∃ r, r = e * cos E := ⟨_, rfl⟩
  rw [← hp] at ha
  unfold farOk at h
  simp only at h
  have mq : (e'.mul (sinR E' (sinI E'.a) (sinI E'.b))).Mem q := hq ▸ mem_mul me (mem_sinR mE hE0 hE1)
  have mr : (e'.mul (cosR E' (cosI E'.a) (cosI E'.b))).Mem r := hr ▸ mem_mul me (mem_cosR mE hE0 hE1 hpi)
  generalize e'.mul (sinR E' (sinI E'.a) (sinI E'.b)) = Iq at *
  generalize e'.mul (cosR E' (cosI E'.a) (cosI E'.b)) = Ir at *
  have mp : (ivOne.sub Ir).Mem p := by
    have : p = 1 - r := by rw [hp, hr]
    exact this ▸ mem_sub mem_one mr
  generalize ivOne.sub Ir = Ip at *
  rw [Bool.and_eq_true, Bool.or_eq_true, Bool.or_eq_true, decide_eq_true_eq, decide_eq_true_eq, decide_eq_true_eq] at h
  obtain ⟨hp0, h⟩ := h
  have p0 : 0 < p := mem_pos mp hp0
  have mip := mem_inv mp hp0
  have a0 : 0 ≤ a := by rw [ha]; exact div_nonneg hf p0.le
  have hfa : keplerFi M e E = a * p := by rw [ha]; field_simp
  have mG : (((E'.sub Iq).sub (ivPt 41943)).mul Ip.inv).Mem ((E - q - (41943 : Int) / 1048576) * (1 / p)) := mem_mul (mem_sub (mem_sub mE mq) (mem_pt _)) mip
  generalize ((E'.sub Iq).sub (ivPt 41943)).mul Ip.inv = G at *
  have hG : a ≤ (E - q - (41943 : Int) / 1048576) * (1 / p) := by
    rw [ha, div_eq_mul_one_div]
    refine mul_le_mul_of_nonneg_right ?_ (by positivity)
    unfold keplerFi
    push_cast
    rw [hq]
    linarith
  rcases h with (h | h) | h
  · left
    unfold Close
    rw [← hp, hfa]
    have h1 : 100 * (A'.b : ℝ) * A'.b ≤ 9 * Ip.a * 1048576 := by exact_mod_cast h
    have h2 : a * 1048576 * (a * 1048576) ≤ (A'.b : ℝ) * A'.b := mul_le_mul mA.2 mA.2 (by positivity) (le_trans (by positivity) mA.2)
    have h3 : 100 * a ^ 2 ≤ 9 * p := by nlinarith [mp.1]
    have h4 := mul_le_mul_of_nonneg_right h3 (by positivity : 0 ≤ p ^ 2)
    linarith
  · exfalso
    have : (G.b : ℝ) < A'.a := by exact_mod_cast h
    linarith [mG.2, mA.1]
  · right
    have mA2 : (A'.meet ⟨0, G.b⟩).Mem a := mem_meet mA ⟨by push_cast; positivity, by linarith [mG.2]⟩
    generalize A'.meet ⟨0, G.b⟩ = A2 at *
    obtain ⟨R, D, D2, ρ, δ, hk, hdan, mR, mD, -, hfi, hneg⟩ := stepI_sound h hp hq hr p0 ha mA2 mip mq mr
    simp only [Bool.and_eq_true, Bool.or_eq_true, decide_eq_true_eq] at hk
    obtain ⟨⟨⟨k1, k2⟩, k3⟩, k4⟩ := hk
    have δ0 := hneg a0
    have c1 : (0 : ℝ) < ((E'.a + D.a : Int) : ℝ) := by exact_mod_cast k1
    have c2 : ((E'.a + D.a : Int) : ℝ) ≤ (E + δ) * 1048576 := by push_cast; linarith [mE.1, mD.1]
    have c3 : ρ ≤ 1 / 3 := by
      have : 3 * (R.b : ℝ) ≤ 1048576 := by exact_mod_cast k2
      linarith [mR.2]
    have c4 : -(1 / 3) ≤ ρ := by
      have : (-1048576 : ℝ) ≤ 3 * R.a := by exact_mod_cast k3
      linarith [mR.1]
    refine ⟨E + δ, hdan, by linarith, by linarith, ?_, ?_⟩
    · rw [hfi, abs_mul]
      have : |ρ| ≤ 1 / 3 := abs_le.mpr ⟨c4, c3⟩
      have := mul_le_mul_of_nonneg_right this (abs_nonneg (keplerFi M e E))
      linarith
    · rcases le_or_gt 0 (keplerFi M e (E + δ)) with h0 | h0
      · exact .inl h0
      · right
        rcases k4 with k4 | k4
        · exfalso
          have : (0 : ℝ) ≤ R.a := by exact_mod_cast k4
          have hρ : 0 ≤ ρ := by linarith [mR.1]
          rw [hfi] at h0
          have := mul_nonneg hρ hf
          linarith
        · unfold Close
          have mf : ((R.mul A2).mul Ip).Mem (keplerFi M e (E + δ)) := by
            rw [hfi, hfa, ← mul_assoc]
            exact mem_mul (mem_mul mR mA2) mp
          refine closeI_sound k4 ⟨mf.1, by push_cast; linarith⟩ ?_
          have hc : (⟨-1048576, (cosI (E'.a + D.a)).b⟩ : Iv).Mem (cos (E + δ)) := by
            refine ⟨by push_cast; linarith [neg_one_le_cos (E + δ)], ?_⟩
            have hD : D.a ≤ 0 := by
              have : (D.a : ℝ) ≤ 0 := by linarith [mD.1]
              exact_mod_cast this
            have hEab : E'.a ≤ E'.b := by
              have : (E'.a : ℝ) ≤ E'.b := mE.1.trans mE.2
              exact_mod_cast this
            have m := mem_cosI (E'.a + D.a) k1.le (by omega)
            have := cos_le_cos_of_nonneg_of_le_pi (x := ((E'.a + D.a : Int) : ℝ) / 1048576) (y := E + δ) (by positivity) (by linarith) (by rw [div_le_iff₀ (by norm_num)]; exact c2)
            exact le_trans (by linarith) m.2
          exact (mem_sub mem_one (mem_mul me hc)).1

/-- A box of `farCover` that contains the point. -/
theorem farCover_box (c : Cut) : ∀ {e' E' A' : Iv} {e E a : ℝ}, farCover c e' E' A' = true → e'.Mem e → E'.Mem E → A'.Mem a → 0 ≤ E'.a → E'.a ≤ E'.b → E'.b ≤ 3303014 →
    ∃ e2 E2 A2 : Iv, farOk e2 E2 A2 = true ∧ e2.Mem e ∧ E2.Mem E ∧ A2.Mem a ∧ 0 ≤ E2.a ∧ E2.b ≤ 3303014 := by
  induction c with
  | o =>
    intro e' E' A' e E a h h1 h2 h3 h4 _ h5
    exact ⟨e', E', A', h, h1, h2, h3, h4, h5⟩
  | z l r ihl ihr =>
    intro e' E' A' e E a h h1 h2 h3 h4 h6 h5
    rw [farCover, Bool.and_eq_true] at h
    rcases mem_halves h1 with h1 | h1
    · exact ihl h.1 h1 h2 h3 h4 h6 h5
    · exact ihr h.2 h1 h2 h3 h4 h6 h5
  | x l r ihl ihr =>
    intro e' E' A' e E a h h1 h2 h3 h4 h6 h5
    rw [farCover, Bool.and_eq_true] at h
    rcases mem_halves h2 with h2 | h2
    · exact ihl h.1 h1 h2 h3 h4 (by simp only [Iv.lower]; omega) (by simp only [Iv.lower]; omega)
    · exact ihr h.2 h1 h2 h3 (by simp only [Iv.upper]; omega) (by simp only [Iv.upper]; omega) h5
  | s l r ihl ihr =>
    intro e' E' A' e E a h h1 h2 h3 h4 h6 h5
    rw [farCover, Bool.and_eq_true] at h
    rcases mem_halves h3 with h3 | h3
    · exact ihl h.1 h1 h2 h3 h4 h6 h5
    · exact ihr h.2 h1 h2 h3 h4 h6 h5

end Radvel
