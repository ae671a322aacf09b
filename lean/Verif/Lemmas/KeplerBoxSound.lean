import Verif.Lemmas.KeplerBox

/-! # What a positive answer of `boxOk` means -/

namespace Radvel
open Iv

theorem mem_le {i : Iv} {x : ℝ} (h : i.Mem x) {n : Int} (hn : i.b ≤ n) : x * 1048576 ≤ n := h.2.trans (by exact_mod_cast hn)

theorem le_mem {i : Iv} {x : ℝ} (h : i.Mem x) {n : Int} (hn : n ≤ i.a) : (n : ℝ) ≤ x * 1048576 := le_trans (by exact_mod_cast hn) h.1

theorem mem_pos {i : Iv} {x : ℝ} (h : i.Mem x) (hi : 0 < i.a) : 0 < x := by
  have : (0 : ℝ) < i.a := by exact_mod_cast hi
  linarith [h.1]

theorem mem_of_le {a b : Int} {x : ℝ} (h1 : (a : ℝ) ≤ x * 1048576) (h2 : x * 1048576 ≤ b) : (⟨a, b⟩ : Iv).Mem x := ⟨h1, h2⟩

theorem mem_one : ivOne.Mem 1 := ⟨by norm_num [ivOne], by norm_num [ivOne]⟩
theorem mem_half : ivHalf.Mem (1 / 2) := ⟨by norm_num [ivHalf], by norm_num [ivHalf]⟩

theorem mem_fr (n d : Int) (hd : 0 < d) {x : ℝ} (hx : x = n / d) : (frac n d).Mem x := hx ▸ mem_frac n d hd

/-- `s - k s²` grows with `s` as long as `2 k s ≤ 1`. -/
theorem mem_ivB {k s : Iv} {κ σ : ℝ} (hk : k.Mem κ) (hs : s.Mem σ) : (ivB k s).Mem (1 - σ + κ * σ ^ 2) := by
  unfold ivB
  split_ifs with h
  · obtain ⟨h1, h2, h3⟩ := h
    obtain ⟨k1, k2⟩ := hk
    obtain ⟨s1, s2⟩ := hs
    have h1' : 2 * (k.b : ℝ) * s.b ≤ 1099511627776 := by exact_mod_cast h1
    have ka0 : (0 : ℝ) ≤ k.a := by exact_mod_cast h2
    have sa0 : (0 : ℝ) ≤ s.a := by exact_mod_cast h3
    have κ0 : 0 ≤ κ := by linarith
    have σ0 : 0 ≤ σ := by linarith
    unfold Mem up
    constructor
    · have e1 := div_le (k.a * (s.b * s.b / 1048576)) 1048576 (by norm_num)
      have e2 := div_le (s.b * s.b) 1048576 (by norm_num)
      push_cast at e1 e2 ⊢
      have e3 : (k.a : ℝ) * ((s.b * s.b / 1048576 : Int) : ℝ) ≤ κ * 1048576 * ((s.b : ℝ) * s.b / 1048576) := by
        refine mul_le_mul k1 ?_ ?_ (by linarith)
        · rw [le_div_iff₀ (by norm_num)]; exact e2
        · have : 0 ≤ s.b * s.b / 1048576 := Int.ediv_nonneg (mul_self_nonneg _) (by norm_num)
          exact_mod_cast this
      -- the function of s
      have hκs : 2 * κ * (s.b : ℝ) ≤ 1048576 := by
        have sb0 : (0 : ℝ) ≤ s.b := by linarith
        have := mul_le_mul_of_nonneg_right k2 sb0
        linarith
      have hκσ : 2 * κ * (σ * 1048576) ≤ 1048576 := by
        have := mul_le_mul_of_nonneg_left s2 κ0
        linarith
      have key : 0 ≤ ((s.b : ℝ) - σ * 1048576) * (1048576 - κ * (s.b + σ * 1048576)) := mul_nonneg (by linarith) (by linarith)
      nlinarith [key]
    · have e1 := le_up (k.b * (-((-(s.a * s.a)) / 1048576))) 1048576 (by norm_num)
      have e2 := le_up (s.a * s.a) 1048576 (by norm_num)
      push_cast at e1 e2 ⊢
      have e3 : κ * 1048576 * ((s.a : ℝ) * s.a / 1048576) ≤ (k.b : ℝ) * -((-(s.a * s.a) / 1048576 : Int) : ℝ) := by
        refine mul_le_mul k2 ?_ (by positivity) (by linarith)
        rw [div_le_iff₀ (by norm_num)]; exact e2
      have hκσ : 2 * κ * (σ * 1048576) ≤ 1048576 := by
        have h2 := mul_le_mul_of_nonneg_left s2 κ0
        have h3 := mul_le_mul_of_nonneg_right k2 (by linarith : (0 : ℝ) ≤ s.b)
        linarith
      have hκs : 2 * κ * (s.a : ℝ) ≤ 1048576 := by
        have := mul_le_mul_of_nonneg_left s1 κ0
        linarith
      have key : 0 ≤ (σ * 1048576 - (s.a : ℝ)) * (1048576 - κ * (s.a + σ * 1048576)) := mul_nonneg (by linarith) (by linarith)
      nlinarith [key]
  · have := mem_add (mem_sub mem_one hs) (mem_mul hk (mem_mul hs hs))
    rwa [← pow_two] at this

/-- The new residual divided by the old one, without the remainder of the Taylor expansion. -/
noncomputable def rG (s k B : ℝ) : ℝ := s * (s * s) * (1 / B * (1 / B)) * (1 / (1 + s) - k) * (1 - k * s * (1 + 1 / (1 + s) * (1 / B)))

/-- A bound on the remainder. -/
noncomputable def rRho (z Q d P B : ℝ) : ℝ := z * Q * (d * (d * d)) * (1 / P) * (1 / B * (1 / B) * (1 / B * (1 / B)) * (1 / 24))

/-- A lower bound on the new slope. -/
noncomputable def rP1 (z x e d B : ℝ) : ℝ := x + e * (1 - d * (1 / B)) ^ 2 * (1 / 2 - z * (1 - d * (1 / B)) ^ 2 * (1 / 24))

/-- The step is not too long, reduces the residual to a third, and leads to the right of the solution again or close to it. -/
def EndOk (z x e P Q d k s B : ℝ) : Prop :=
  0 < B ∧ d * (1 / B) ≤ 2 ∧ rG s k B + rRho z Q d P B ≤ 1 / 3 ∧
    (0 ≤ rG s k B - rRho z Q d P B ∨ (-(1 / 3) ≤ rG s k B - rRho z Q d P B ∧ 0 < rP1 z x e d B ∧ ∀ w, w ≤ 0 → rG s k B - rRho z Q d P B ≤ w → 100 * (w * d * P) ^ 2 ≤ 9 * rP1 z x e d B ^ 3))

theorem boxEnd_sound {Z X T e' P' iP Q' D K i1 B' : Iv} (h : boxEnd Z X T e' P' iP Q' D K i1 B' = true) (hB : 0 < B'.a) (hP : 0 < P'.a) (hD : 0 ≤ D.a) {z x s e P Q d1 k B : ℝ} (hz : Z.Mem z) (hx : X.Mem x) (hs : T.Mem s)
    (he : e'.Mem e) (mP : P'.Mem P) (miP : iP.Mem (1 / P)) (mQ : Q'.Mem Q) (mD : D.Mem d1) (mK : K.Mem k) (mi1 : i1.Mem (1 / (1 + s))) (mB : B'.Mem B) : EndOk z x e P Q d1 k s B := by
  unfold EndOk rG rRho rP1
  unfold boxEnd at h
  have miB := mem_inv mB hB
  have md := mem_mul mD miB
  have mm2 := mem_sq (mem_sub mem_one md)
  have mP1 := mem_add hx (mem_mul (mem_mul he mm2) (mem_sub mem_half (mem_mul (mem_mul hz mm2) (mem_fr 1 24 (by norm_num) (x := 1 / 24) (by norm_num)))))
  have miB2 := mem_mul miB miB
  have mg := mem_mul (mem_mul (mem_mul (mem_mul hs (mem_mul hs hs)) miB2) (mem_sub mi1 mK)) (mem_sub mem_one (mem_mul (mem_mul mK hs) (mem_add mem_one (mem_mul mi1 miB))))
  have mrho := mem_mul (mem_mul (mem_mul (mem_mul hz mQ) (mem_mul mD (mem_mul mD mD))) miP) (mem_mul (mem_mul miB2 miB2) (mem_fr 1 24 (by norm_num) (x := 1 / 24) (by norm_num)))
  simp only at h
  generalize (((T.mul (T.mul T)).mul (B'.inv.mul B'.inv)).mul (i1.sub K)).mul (ivOne.sub ((K.mul T).mul (ivOne.add (i1.mul B'.inv)))) = Ig at *
  generalize (((Z.mul Q').mul (D.mul (D.mul D))).mul iP).mul (((B'.inv.mul B'.inv).mul (B'.inv.mul B'.inv)).mul (frac 1 24)) = Ir at *
  generalize X.add ((e'.mul (ivOne.sub (D.mul B'.inv)).sq).mul (ivHalf.sub ((Z.mul (ivOne.sub (D.mul B'.inv)).sq).mul (frac 1 24)))) = Ip at *
  generalize s * (s * s) * (1 / B * (1 / B)) * (1 / (1 + s) - k) * (1 - k * s * (1 + 1 / (1 + s) * (1 / B))) = g at *
  generalize z * Q * (d1 * (d1 * d1)) * (1 / P) * (1 / B * (1 / B) * (1 / B * (1 / B)) * (1 / 24)) = rho at *
  generalize x + e * (1 - d1 * (1 / B)) ^ 2 * (1 / 2 - z * (1 - d1 * (1 / B)) ^ 2 * (1 / 24)) = P1 at *
  simp only [Bool.and_eq_true, Bool.or_eq_true, decide_eq_true_eq] at h
  obtain ⟨⟨h1, h2⟩, h3⟩ := h
  refine ⟨mem_pos mB hB, ?_, ?_, ?_⟩
  · have := mem_le md h1
    push_cast at this
    linarith
  · have : ((Ig.b + Ir.b : Int) : ℝ) ≤ (349525 : Int) := by exact_mod_cast h2
    push_cast at this
    linarith [mg.2, mrho.2]
  · rcases h3 with h3 | ⟨⟨h3, h4⟩, h5⟩
    · left
      have : ((0 : Int) : ℝ) ≤ ((Ig.a - Ir.b : Int) : ℝ) := by exact_mod_cast h3
      push_cast at this
      linarith [mg.1, mrho.2]
    · right
      refine ⟨?_, mem_pos mP1 h4, ?_⟩
      · have : ((-349525 : Int) : ℝ) ≤ ((Ig.a - Ir.b : Int) : ℝ) := by exact_mod_cast h3
        push_cast at this
        linarith [mg.1, mrho.2]
      · intro w hw0 hw
        have hlo : ((Ig.a - Ir.b : Int) : ℝ) ≤ w * 1048576 := by
          push_cast
          linarith [mg.1, mrho.2]
        have h6 := le_up (-(Ig.a - Ir.b) * D.b) 1048576 (by norm_num)
        have h7 := le_up (up (-(Ig.a - Ir.b) * D.b) * P'.b) 1048576 (by norm_num)
        unfold up at h5
        unfold up at h7
        generalize -(-(-(-(-(Ig.a - Ir.b) * D.b) / 1048576) * P'.b) / 1048576) = F at *
        generalize -(-(-(Ig.a - Ir.b) * D.b) / 1048576) = G at *
        have hD0 : (0 : ℝ) ≤ D.a := by exact_mod_cast hD
        have hP0 : (0 : ℝ) < P'.a := by exact_mod_cast hP
        have w1 : 0 ≤ -w * 1048576 := by linarith
        have w2 : -w * 1048576 ≤ ((-(Ig.a - Ir.b) : Int) : ℝ) := by push_cast at hlo ⊢; linarith
        push_cast at h6 h7
        have d0 : 0 ≤ d1 * 1048576 := hD0.trans mD.1
        have p0 : 0 ≤ P * 1048576 := hP0.le.trans mP.1
        have q1 : (-w * 1048576) * (d1 * 1048576) ≤ (G : ℝ) * 1048576 := by
          refine le_trans ?_ h6
          have := mul_le_mul w2 mD.2 d0 (w1.trans w2)
          push_cast at this
          exact this
        have q2 : -w * d1 * 1048576 ≤ G := by linarith
        have q0 : 0 ≤ -w * d1 * 1048576 := by
          have := mul_nonneg w1 d0
          linarith
        have q3 : (-w * d1 * 1048576) * (P * 1048576) ≤ (F : ℝ) * 1048576 := by
          refine le_trans ?_ h7
          exact mul_le_mul q2 mP.2 p0 (q0.trans q2)
        have q4 : 0 ≤ -w * d1 * P * 1048576 := by
          have := mul_nonneg q0 p0
          linarith
        have q5 : -w * d1 * P * 1048576 ≤ F := by linarith
        have q6 : (-w * d1 * P * 1048576) ^ 2 ≤ (F : ℝ) ^ 2 := pow_le_pow_left₀ q4 q5 2
        have hP1 : (0 : ℝ) < Ip.a := by exact_mod_cast h4
        have q7 : (Ip.a : ℝ) ^ 3 ≤ (P1 * 1048576) ^ 3 := pow_le_pow_left₀ hP1.le mP1.1 3
        have q8 : 100 * (F : ℝ) * F * 1048576 ≤ 9 * (Ip.a * Ip.a * Ip.a) := by exact_mod_cast h5
        nlinarith [q6, q7, q8]

/-- `boxOk` is right: the step from the right of the solution, for all values in the box that satisfy the hypotheses. -/
theorem boxOk_sound {Z X T : Iv} (h : boxOk Z X T = true) {z x s S1 C2 e P Q r d1 k : ℝ} (hz : Z.Mem z) (hx : X.Mem x) (hs : T.Mem s) (hTa : 0 ≤ T.a)
    (a1 : 1 - z * (1 / 6) ≤ S1) (a2 : S1 ≤ 1 - z * (1 / 6) + z * z * (1 / 120)) (a3 : 1 / 2 - z * (1 / 24) ≤ C2) (a4 : C2 ≤ 1 / 2 - z * (1 / 24) + z * z * (1 / 720))
    (he : e = 1 - x * z) (he1 : 3 / 5 ≤ e) (he2 : e ≤ 1) (hP : P = x + e * C2) (hQ : Q = e * S1) (hr : r = e * (1 - z * C2)) (hd : d1 = (2 - (1 / (1 + s) + 1 / (1 + s))) * (P * (1 / Q)))
    (hk : k = r * (P * (1 / Q)) * (1 / Q) * (2 / 3)) (hG : d1 ≤ 1 - e * (1 / 3 - z * (1 / 30)) * (1 / P)) (d0 : 0 ≤ d1) :
    0 < P ∧ (100 * d1 ^ 2 ≤ 9 * P ∨ EndOk z x e P Q d1 k s (1 - s + k * s ^ 2)) := by
  unfold boxOk at h
  simp only at h
  have mxz := mem_mul hx hz
  split_ifs at h with h0
  · exfalso
    have : ((1048576 - (X.mul Z).a : Int) : ℝ) < (629145 : Int) := by exact_mod_cast h0
    push_cast at this
    have := mxz.1
    linarith
  · have me : ((ivOne.sub (X.mul Z)).meet ⟨629145, 1048576⟩).Mem e := by
      refine mem_meet (he ▸ mem_sub mem_one mxz) ⟨?_, ?_⟩ <;> push_cast <;> linarith
    have mz2 := mem_mul hz hz
    have m6 := mem_sub mem_one (mem_mul hz (mem_fr 1 6 (by norm_num) (x := 1 / 6) (by norm_num)))
    have m120 := mem_add m6 (mem_mul mz2 (mem_fr 1 120 (by norm_num) (x := 1 / 120) (by norm_num)))
    have mS1 : (⟨(ivOne.sub (Z.mul (frac 1 6))).a, ((ivOne.sub (Z.mul (frac 1 6))).add ((Z.mul Z).mul (frac 1 120))).b⟩ : Iv).Mem S1 := ⟨m6.1.trans (by linarith), le_trans (by linarith) m120.2⟩
    have m24 := mem_sub mem_half (mem_mul hz (mem_fr 1 24 (by norm_num) (x := 1 / 24) (by norm_num)))
    have m720 := mem_add m24 (mem_mul mz2 (mem_fr 1 720 (by norm_num) (x := 1 / 720) (by norm_num)))
    have mC2 : (⟨(ivHalf.sub (Z.mul (frac 1 24))).a, ((ivHalf.sub (Z.mul (frac 1 24))).add ((Z.mul Z).mul (frac 1 720))).b⟩ : Iv).Mem C2 := ⟨m24.1.trans (by linarith), le_trans (by linarith) m720.2⟩
    generalize (⟨(ivOne.sub (Z.mul (frac 1 6))).a, ((ivOne.sub (Z.mul (frac 1 6))).add ((Z.mul Z).mul (frac 1 120))).b⟩ : Iv) = I1 at *
    generalize (⟨(ivHalf.sub (Z.mul (frac 1 24))).a, ((ivHalf.sub (Z.mul (frac 1 24))).add ((Z.mul Z).mul (frac 1 720))).b⟩ : Iv) = I2 at *
    generalize (ivOne.sub (X.mul Z)).meet ⟨629145, 1048576⟩ = Ie at *
    have mco := mem_sub mem_one (mem_mul hz mC2)
    have mP : (((X.mul (ivOne.sub (Z.mul I2))).add I2).meet (X.add (Ie.mul I2))).Mem P := by
      refine mem_meet ?_ (hP ▸ mem_add hx (mem_mul me mC2))
      have : P = x * (1 - z * C2) + C2 := by rw [hP, he]; ring
      rw [this]
      exact mem_add (mem_mul hx mco) mC2
    generalize ((X.mul (ivOne.sub (Z.mul I2))).add I2).meet (X.add (Ie.mul I2)) = IP at *
    have mQ : (Ie.mul I1).Mem Q := hQ ▸ mem_mul me mS1
    generalize Ie.mul I1 = IQ at *
    have mr : (Ie.mul (ivOne.sub (Z.mul I2))).Mem r := hr ▸ mem_mul me mco
    generalize Ie.mul (ivOne.sub (Z.mul I2)) = Ir at *
    simp only [Bool.and_eq_true, Bool.or_eq_true, decide_eq_true_eq] at h
    obtain ⟨⟨p0, q0⟩, h⟩ := h
    refine ⟨mem_pos mP p0, ?_⟩
    have miP := mem_inv mP p0
    have miQ := mem_inv mQ q0
    have mi1 : (ivOne.add T).inv.Mem (1 / (1 + s)) := mem_inv (mem_add mem_one hs) (by simp only [add, ivOne]; omega)
    have mt := mem_sub (mem_fr 2 1 (by norm_num) (x := 2) (by norm_num)) (mem_add mi1 mi1)
    have mR := mem_mul mP miQ
    have md1 : (((frac 2 1).sub ((ivOne.add T).inv.add (ivOne.add T).inv)).mul (IP.mul IQ.inv)).Mem d1 := hd ▸ mem_mul mt mR
    have mG := mem_sub mem_one (mem_mul (mem_mul me (mem_sub (mem_fr 1 3 (by norm_num) (x := 1 / 3) (by norm_num)) (mem_mul hz (mem_fr 1 30 (by norm_num) (x := 1 / 30) (by norm_num))))) miP)
    generalize ((frac 2 1).sub ((ivOne.add T).inv.add (ivOne.add T).inv)).mul (IP.mul IQ.inv) = Id at *
    generalize ivOne.sub ((Ie.mul ((frac 1 3).sub (Z.mul (frac 1 30)))).mul IP.inv) = IG at *
    rcases h with h | h
    · exfalso
      have : (IG.b : ℝ) < Id.a := by exact_mod_cast h
      linarith [md1.1, mG.2]
    · have md1' : (Id.meet ⟨0, IG.b⟩).Mem d1 := by
        refine mem_meet md1 ⟨?_, ?_⟩
        · push_cast; linarith
        · exact le_trans (by linarith) mG.2
      have hDa : 0 ≤ (Id.meet ⟨0, IG.b⟩).a := by
        simp only [meet, max2_eq]
        exact le_max_right _ _
      generalize Id.meet ⟨0, IG.b⟩ = D at *
      unfold boxMid at h
      split_ifs at h with hL
      · left
        have h1 : 100 * (D.b : ℝ) * D.b ≤ 9 * IP.a * 1048576 := by exact_mod_cast hL
        have h2 : d1 * 1048576 * (d1 * 1048576) ≤ (D.b : ℝ) * D.b := mul_le_mul md1'.2 md1'.2 (by linarith) (le_trans (by linarith) md1'.2)
        have h3 := mP.1
        nlinarith
      · right
        simp only [Bool.and_eq_true, decide_eq_true_eq] at h
        have mk : (((Ir.mul (IP.mul IQ.inv)).mul IQ.inv).mul (frac 2 3)).Mem k := hk ▸ mem_mul (mem_mul (mem_mul mr mR) miQ) (mem_fr 2 3 (by norm_num) (by norm_num))
        exact boxEnd_sound h.2 h.1 p0 hDa hz hx hs me mP miP mQ md1' mk mi1 (mem_ivB mk hs)

theorem mem_halves {i : Iv} {x : ℝ} (h : i.Mem x) : i.lower.Mem x ∨ i.upper.Mem x := by
  rcases le_total (x * 1048576) (((i.a + i.b) / 2 : Int) : ℝ) with h1 | h1
  · exact .inl ⟨h.1, h1⟩
  · exact .inr ⟨h1, h.2⟩

/-- Some box of a subdivision contains the point. -/
theorem coverOk_box (c : Cut) : ∀ {Z X T : Iv} {z x s : ℝ}, coverOk c Z X T = true → Z.Mem z → X.Mem x → T.Mem s → 0 ≤ T.a → T.a ≤ T.b → ∃ Z' X' T' : Iv, boxOk Z' X' T' = true ∧ Z'.Mem z ∧ X'.Mem x ∧ T'.Mem s ∧ 0 ≤ T'.a := by
  induction c with
  | o =>
    intro Z X T z x s h hz hx hs h0 _
    exact ⟨Z, X, T, h, hz, hx, hs, h0⟩
  | z l r ihl ihr =>
    intro Z X T z x s h hz hx hs h0 h1
    rw [coverOk, Bool.and_eq_true] at h
    rcases mem_halves hz with hz | hz
    · exact ihl h.1 hz hx hs h0 h1
    · exact ihr h.2 hz hx hs h0 h1
  | x l r ihl ihr =>
    intro Z X T z x s h hz hx hs h0 h1
    rw [coverOk, Bool.and_eq_true] at h
    rcases mem_halves hx with hx | hx
    · exact ihl h.1 hz hx hs h0 h1
    · exact ihr h.2 hz hx hs h0 h1
  | s l r ihl ihr =>
    intro Z X T z x s h hz hx hs h0 h1
    rw [coverOk, Bool.and_eq_true] at h
    rcases mem_halves hs with hs | hs
    · exact ihl h.1 hz hx hs h0 (by simp only [Iv.lower]; omega)
    · exact ihr h.2 hz hx hs (by simp only [Iv.upper]; omega) (by simp only [Iv.upper]; omega)

end Radvel
