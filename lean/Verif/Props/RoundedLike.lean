import Verif.Lemmas.RoundedLike
import Verif.Props.RoundedModel
import Verif.Lemmas.RVLike

/-!
# The log-likelihood in double precision (C174)
-/

namespace Radvel

open Real ProbabilityTheory

variable {O : LikeOps}

theorem quad_ge {s : ℝ} (jit : ℝ) (hs : 1e-50 ≤ |s|) : 1e-100 ≤ s * s ∧ 1e-100 ≤ s ^ 2 + jit ^ 2 := by
  have h1 : (1e-50 : ℝ) * 1e-50 ≤ |s| * |s| := mul_le_mul hs hs (by norm_num) (abs_nonneg s)
  rw [abs_mul_abs_self] at h1
  have h2 : (1e-50 : ℝ) * 1e-50 = 1e-100 := by norm_num
  rw [h2] at h1
  exact ⟨h1, by nlinarith [sq_nonneg jit]⟩

theorem quad_round (hO : IsLikeDouble O) (jit s : ℝ) (hs : 1e-50 ≤ |s|) : |O.sumSigQuad jit s - (s ^ 2 + jit ^ 2)| ≤ 2.3e-16 * (s ^ 2 + jit ^ 2) := by
  have h1 := hO.ops.mul s s
  have h2 := hO.ops.mul jit jit
  rw [abs_of_nonneg (mul_self_nonneg s)] at h1
  rw [abs_of_nonneg (mul_self_nonneg jit)] at h2
  have := rel_quad unit_le tiny_le2 (quad_ge jit hs).1 (mul_self_nonneg jit) h1 h2 (hO.ops.add _ _)
  rw [sq, sq]
  exact this

theorem penalty_round (hO : IsLikeDouble O) (jit s : ℝ) (hs : 1e-50 ≤ |s|) :
    |O.log (O.sqrt (O.mul (O.mul 2 (O.lit π)) (O.sumSigQuad jit s))) - log √(2 * π * (s ^ 2 + jit ^ 2))| ≤ 8.9e-16 * |log √(2 * π * (s ^ 2 + jit ^ 2))| + 1.5e-15 := by
  have hp := Real.pi_pos
  have hp3 := Real.pi_gt_three
  have hq := quad_round hO jit s hs
  have hQ := (quad_ge jit hs).2
  generalize O.sumSigQuad jit s = q at *
  generalize s ^ 2 + jit ^ 2 = Q at *
  have hQ0 : 0 < Q := lt_of_lt_of_le (by norm_num) hQ
  have hu := unit_le; have ht := tiny_le2
  have hlit : |O.lit π - π| ≤ 1.1103e-16 * π := by
    have := hO.ops.lit π
    rw [abs_of_pos hp] at this
    exact this.trans (mul_le_mul_of_nonneg_right hu hp.le)
  have h2 : |(2 : ℝ) - 2| ≤ 0 * 2 := by norm_num
  have hc := rel_mul hu (by norm_num : (0 : ℝ) ≤ 2) hp.le (le_refl 0) (by norm_num) (by norm_num) (by norm_num) h2 hlit (hO.ops.mul 2 (O.lit π))
  have hc' : |O.mul 2 (O.lit π) - 2 * π| ≤ 2.23e-16 * (2 * π) := by
    refine hc.trans ?_
    norm_num at ht ⊢
    linarith
  have hx := rel_mul hu (by positivity : 0 ≤ 2 * π) hQ0.le (by norm_num) (by norm_num) (by norm_num) (by norm_num) hc' hq (hO.ops.mul _ q)
  have hX : 0 < 2 * π * Q := by positivity
  have hX1 : Q ≤ 2 * π * Q := by nlinarith
  have hx' : |O.mul (O.mul 2 (O.lit π)) q - 2 * π * Q| ≤ 5.7e-16 * (2 * π * Q) := by
    refine hx.trans ?_
    generalize 2 * π * Q = X at *
    have : (1e-100 : ℝ) ≤ X := hQ.trans hX1
    norm_num at ht this ⊢
    linarith
  generalize 2 * π * Q = X at *
  have hx0 : 0 ≤ O.mul (O.mul 2 (O.lit π)) q := by
    have := (abs_le.1 hx').1
    norm_num at this ⊢
    linarith
  have hs := rel_sqrt hX (by norm_num) lib_le hx' (hO.ops.sqrt _ hx0)
  have hl := rel_log (Real.sqrt_pos.2 hX) (by norm_num) (by norm_num) lib_le hs (hO.log _)
  refine hl.trans ?_
  norm_num

theorem chi_round (hO : IsLikeDouble O) (jit s r : ℝ) (hs : 1e-50 ≤ |s|) :
    |O.div (O.mul r r) (O.sumSigQuad jit s) - r ^ 2 / (s ^ 2 + jit ^ 2)| ≤ 4.6e-16 * |r ^ 2 / (s ^ 2 + jit ^ 2)| + 1e-49 := by
  have hQ := (quad_ge jit hs).2
  have hQ0 : 0 < s ^ 2 + jit ^ 2 := lt_of_lt_of_le (by norm_num) hQ
  have hq := quad_round hO jit s hs
  have hq0 : O.sumSigQuad jit s ≠ 0 := by
    intro h0
    rw [h0] at hq
    have := (abs_le.1 hq).1
    norm_num at this
    linarith
  have h1 := hO.ops.mul r r
  rw [abs_of_nonneg (mul_self_nonneg r), ← sq] at h1
  rw [abs_of_nonneg (by positivity : 0 ≤ r ^ 2 / (s ^ 2 + jit ^ 2))]
  exact rel_div unit_le tiny_pos.le tiny_le2 (sq_nonneg r) hQ h1 hq (hO.ops.div _ _ hq0) rfl

theorem sum_halves {α : Type} (l : List α) (f g : α → ℝ) : (l.map fun x => f x / 2 + g x).sum = (l.map f).sum / 2 + (l.map g).sum := by
  induction l with
  | nil => simp
  | cons a l ih => simp only [List.map_cons, List.sum_cons, ih]; ring

theorem sum_density (l : List (ℝ × ℝ)) (jit : ℝ) (hs : ∀ x ∈ l, 1e-50 ≤ |x.2|) : (l.map fun x => log (gaussianPDFReal 0 (x.2 ^ 2 + jit ^ 2).toNNReal x.1)).sum =
    -0.5 * (l.map fun x => x.1 ^ 2 / (x.2 ^ 2 + jit ^ 2)).sum - (l.map fun x => log √(2 * π * (x.2 ^ 2 + jit ^ 2))).sum := by
  induction l with
  | nil => simp
  | cons a l ih =>
    have hQ0 : 0 < a.2 ^ 2 + jit ^ 2 := lt_of_lt_of_le (by norm_num) (quad_ge jit (hs a (by simp))).2
    simp only [List.map_cons, List.sum_cons, ih (fun x hx => hs x (by simp [hx]))]
    have : log (gaussianPDFReal 0 (a.2 ^ 2 + jit ^ 2).toNNReal a.1) = -0.5 * (a.1 ^ 2 / (a.2 ^ 2 + jit ^ 2)) - log √(2 * π * (a.2 ^ 2 + jit ^ 2)) := by
      have hp := Real.pi_pos
      rw [gaussianPDFReal, log_mul (by positivity) (exp_pos _).ne', log_exp, log_inv, Real.coe_toNNReal _ hQ0.le]
      field_simp
      ring
    rw [this]
    ring

theorem like_total {u T N C P p x y h z : ℝ} (hu : u ≤ 1.1103e-16) (hN : 0 ≤ N) (hN1 : N ≤ 1000000) (hC : 0 ≤ C) (hp : |p| ≤ P) (hx : |x - C| ≤ (4.6e-16 + 1.12e-16 * N) * C + 1.01 * (N * 1e-49))
    (hy : |y - p| ≤ (8.9e-16 + 1.12e-16 * N) * P + 1.01 * (N * 1.5e-15)) (hh : |h - -0.5 * x| ≤ u * |-0.5 * x| + T) (hz : |z - (h - y)| ≤ u * |h - y|) (hT : 0 ≤ T) :
    |z - (-0.5 * C - p)| ≤ (1.1e-15 + 1.2e-16 * N) * (C / 2 + P) + 2e-15 * N + 2 * T := by
  have hP : 0 ≤ P := (abs_nonneg p).trans hp
  have n1 : N * C ≤ 1000000 * C := mul_le_mul_of_nonneg_right hN1 hC
  have n2 : N * P ≤ 1000000 * P := mul_le_mul_of_nonneg_right hN1 hP
  have n3 := mul_nonneg hN hC
  have n4 := mul_nonneg hN hP
  have x1 := abs_of_near hx (le_of_eq (abs_of_nonneg hC))
  have y1 := abs_of_near hy hp
  have e1 : |(-0.5 : ℝ) * x| = 0.5 * |x| := by rw [abs_mul]; norm_num
  have e2 : |-0.5 * x - -0.5 * C| = 0.5 * |x - C| := by rw [← mul_sub, abs_mul]; norm_num
  have h1 : |h - -0.5 * C| ≤ u * |-0.5 * x| + T + |-0.5 * x - -0.5 * C| := near_trans hh (le_refl _)
  have h2 : |h| ≤ 0.5 * C + (u * |-0.5 * x| + T + |-0.5 * x - -0.5 * C|) := abs_of_near h1 (by rw [abs_mul, abs_of_nonneg hC]; norm_num)
  rw [e1, e2] at h1 h2
  have u1 : u * (0.5 * |x|) ≤ 1.1103e-16 * (0.5 * |x|) := mul_le_mul_of_nonneg_right hu (by positivity)
  have h3 : |h - y - (-0.5 * C - p)| ≤ |h - -0.5 * C| + |y - p| := by
    rw [show h - y - (-0.5 * C - p) = (h - -0.5 * C) - (y - p) by ring]
    exact abs_sub _ _
  have h4 : |h - y| ≤ |h| + |y| := abs_sub _ _
  have u2 := mul_le_mul hu h4 (abs_nonneg _) (by norm_num)
  refine (near_trans hz h3).trans ?_
  rw [show (4.6e-16 + 1.12e-16 * N) * C = 4.6e-16 * C + 1.12e-16 * (N * C) by ring] at *
  rw [show (8.9e-16 + 1.12e-16 * N) * P = 8.9e-16 * P + 1.12e-16 * (N * P) by ring] at *
  rw [show (1.1e-15 + 1.2e-16 * N) * (C / 2 + P) = 1.1e-15 * (C / 2) + 1.2e-16 * ((N * C) / 2) + 1.1e-15 * P + 1.2e-16 * (N * P) by ring]
  generalize N * C = a1 at *
  generalize N * P = a2 at *
  generalize |x - C| = a3 at *
  generalize u * (0.5 * |x|) = a4 at *
  generalize |x| = a5 at *
  generalize |y - p| = a6 at *
  generalize |y| = a7 at *
  generalize |h - -0.5 * C| = a8 at *
  generalize u * |h - y| = a9 at *
  generalize |h| = a10 at *
  clear e1 e2 hh hz h3 h4 hp hu
  norm_num at hx hy x1 y1 h1 h2 u1 u2 ⊢
  linarith

/-- C174: for up to a million residuals with errors of at least 1e-50, `loglike_jitter` in double precision, the sums taken in any order, differs from the logarithm of the product of the normal densities by a relative error of
`1.1e-15 + 1.2e-16 n` of its terms and `2e-15` per measurement. -/
theorem C174_loglike (hO : IsLikeDouble O) (jit : ℝ) (l : List (ℝ × ℝ)) (hl : l.length ≤ 1000000) (hs : ∀ x ∈ l, 1e-50 ≤ |x.2|) :
    |O.loglikeJitter (l.map Prod.fst) (l.map Prod.snd) jit - (l.map fun x => log (gaussianPDFReal 0 (x.2 ^ 2 + jit ^ 2).toNNReal x.1)).sum| ≤
      (1.1e-15 + 1.2e-16 * l.length) * (l.map fun x => x.1 ^ 2 / (x.2 ^ 2 + jit ^ 2) / 2 + |log √(2 * π * (x.2 ^ 2 + jit ^ 2))|).sum + 2e-15 * l.length + 2 * tiny := by
  rw [sum_density l jit hs, sum_halves]
  unfold LikeOps.loglikeJitter
  simp only [List.map_map]
  obtain ⟨n1, hn1, hs1⟩ := hO.sum (l.map (((fun q => O.log (O.sqrt (O.mul (O.mul 2 (O.lit π)) q))) ∘ O.sumSigQuad jit) ∘ Prod.snd))
  have hz : List.zipWith (fun r q => O.div (O.mul r r) q) (l.map Prod.fst) (l.map (O.sumSigQuad jit ∘ Prod.snd)) = l.map fun x => O.div (O.mul x.1 x.1) (O.sumSigQuad jit x.2) := by
    exact zipWith_map_same l _ _ _
  rw [hz]
  obtain ⟨n2, hn2, hs2⟩ := hO.sum (l.map fun x => O.div (O.mul x.1 x.1) (O.sumSigQuad jit x.2))
  rw [List.length_map] at hn1 hn2
  have r1 := list_round hO.ops l (fun x => log √(2 * π * (x.2 ^ 2 + jit ^ 2))) _ 8.9e-16 1.5e-15 (by norm_num) (by norm_num) (fun x hx => penalty_round hO jit x.2 (hs x hx)) hl hn1 hs1
  have r2 := list_round hO.ops l (fun x => x.1 ^ 2 / (x.2 ^ 2 + jit ^ 2)) _ 4.6e-16 1e-49 (by norm_num) (by norm_num) (fun x hx => chi_round hO jit x.2 x.1 (hs x hx)) hl hn2 hs2
  have hC : ∀ k : List (ℝ × ℝ), 0 ≤ (k.map fun x => x.1 ^ 2 / (x.2 ^ 2 + jit ^ 2)).sum ∧ (k.map fun x => |x.1 ^ 2 / (x.2 ^ 2 + jit ^ 2)|).sum = (k.map fun x => x.1 ^ 2 / (x.2 ^ 2 + jit ^ 2)).sum ∧
      |(k.map fun x => log √(2 * π * (x.2 ^ 2 + jit ^ 2))).sum| ≤ (k.map fun x => |log √(2 * π * (x.2 ^ 2 + jit ^ 2))|).sum := by
    intro k
    induction k with
    | nil => simp
    | cons a k ih =>
      obtain ⟨i1, i2, i3⟩ := ih
      have : 0 ≤ a.1 ^ 2 / (a.2 ^ 2 + jit ^ 2) := by positivity
      simp only [List.map_cons, List.sum_cons, i2, abs_of_nonneg this]
      exact ⟨by linarith, trivial, (abs_add_le _ _).trans (by linarith)⟩
  obtain ⟨c1, c2, c3⟩ := hC l
  rw [c2] at r2
  exact like_total unit_le (Nat.cast_nonneg _) (by exact_mod_cast hl) c1 c3 r2 r1 (hO.ops.mul _ _) (hO.ops.sub _ _) tiny_pos.le

/-- C174: the residual of a measurement, if the velocity of the model is known to within `eps`. -/
theorem C174_residual (hO : IsLikeDouble O) (gamma : ℝ) (x : Truth) (h : |x.point.mod - x.vel| ≤ x.eps) : |O.residual gamma x.point - x.res gamma| ≤ x.resErr gamma := by
  unfold LikeOps.residual Truth.res Truth.resErr
  have h1 := hO.ops.sub x.point.y gamma
  have h2 := hO.ops.sub (O.sub x.point.y gamma) x.point.mod
  generalize O.sub x.point.y gamma = a at *
  generalize O.sub a x.point.mod = r at *
  generalize x.point.y - gamma = D at *
  generalize x.point.mod = m at *
  generalize x.vel = V at *
  generalize x.eps = ε at *
  have hu := unit_le
  have h1' : |a - D| ≤ 1.1103e-16 * |D| := h1.trans (mul_le_mul_of_nonneg_right hu (abs_nonneg _))
  have h3 : |a - m| ≤ |D| + 1.1103e-16 * |D| + (|V| + ε) := (abs_sub _ _).trans (add_le_add (abs_of_near h1' (le_refl _)) (abs_of_near h (le_refl _)))
  have h4 := h2.trans (mul_le_mul hu h3 (abs_nonneg _) (by norm_num))
  have h5 : |a - m - (D - V)| ≤ 1.1103e-16 * |D| + ε := by
    rw [show a - m - (D - V) = (a - D) - (m - V) by ring]
    exact (abs_sub _ _).trans (add_le_add h1' h)
  have hε : 0 ≤ ε := (abs_nonneg _).trans h
  have p1 := abs_nonneg D; have p2 := abs_nonneg V
  refine (near_trans h4 h5).trans ?_
  generalize |D| = d at *
  generalize |V| = v at *
  norm_num
  linarith

theorem logDensity_eq (gamma jit : ℝ) (x : Truth) : x.logDensity gamma jit = log (gaussianPDFReal 0 (x.point.err ^ 2 + jit ^ 2).toNNReal (x.res gamma)) := by
  unfold Truth.logDensity Truth.res
  simp only [gaussianPDFReal]
  rw [show x.point.y - (x.vel + gamma) = x.point.y - gamma - x.vel - 0 by ring]

theorem sq_near {a b η : ℝ} (h : |a - b| ≤ η) : |a ^ 2 - b ^ 2| ≤ 2 * (η * (|b| + η)) ∧ a ^ 2 ≤ (|b| + η) ^ 2 := by
  have h1 := abs_of_near h (le_refl _)
  have hη : 0 ≤ η := (abs_nonneg _).trans h
  constructor
  · rw [show a ^ 2 - b ^ 2 = (a - b) * (a + b) by ring, abs_mul]
    have h2 : |a + b| ≤ 2 * |b| + η := (abs_add_le _ _).trans (by linarith)
    refine (mul_le_mul h h2 (abs_nonneg _) hη).trans ?_
    nlinarith
  · rw [← sq_abs a]
    exact pow_le_pow_left₀ (abs_nonneg a) h1 2

/-- C174: the log-likelihood of a data set in double precision, from the measurements and computed velocities that are known to within `eps` (C173): it differs from the logarithm of the normal density of the measurements around the
exact velocities by the effect of the errors of the residuals and the rounding of `C174_loglike`. -/
theorem C174_logprob (hO : IsLikeDouble O) (gamma jit : ℝ) (l : List Truth) (hl : l.length ≤ 1000000) (hs : ∀ x ∈ l, 1e-50 ≤ |x.point.err|) (hv : ∀ x ∈ l, |x.point.mod - x.vel| ≤ x.eps) :
    |O.logprob gamma jit (l.map Truth.point) - (l.map fun x => x.logDensity gamma jit).sum| ≤
      (l.map fun x => x.resErr gamma * (|x.res gamma| + x.resErr gamma) / x.var jit).sum +
      (1.1e-15 + 1.2e-16 * l.length) * (l.map fun x => (|x.res gamma| + x.resErr gamma) ^ 2 / x.var jit / 2 + |log √(2 * π * x.var jit)|).sum + 2e-15 * l.length + 2 * tiny := by
  have h1 := C174_loglike hO jit (l.map fun x => (O.residual gamma x.point, x.point.err)) (by simpa using hl) (by
    intro y hy
    obtain ⟨x, hx, rfl⟩ := List.mem_map.1 hy
    exact hs x hx)
  have e : O.logprob gamma jit (l.map Truth.point) = O.loglikeJitter ((l.map fun x => (O.residual gamma x.point, x.point.err)).map Prod.fst) ((l.map fun x => (O.residual gamma x.point, x.point.err)).map Prod.snd) jit := by
    unfold LikeOps.logprob
    simp only [List.map_map]
    rfl
  rw [e]
  simp only [List.map_map, List.length_map] at h1 ⊢
  have key : ∀ k : List Truth, (∀ x ∈ k, x ∈ l) →
      |(k.map ((fun x : ℝ × ℝ => log (gaussianPDFReal 0 (x.2 ^ 2 + jit ^ 2).toNNReal x.1)) ∘ fun x => (O.residual gamma x.point, x.point.err))).sum - (k.map fun x => x.logDensity gamma jit).sum| ≤
        (k.map fun x => x.resErr gamma * (|x.res gamma| + x.resErr gamma) / x.var jit).sum ∧
      (k.map ((fun x : ℝ × ℝ => x.1 ^ 2 / (x.2 ^ 2 + jit ^ 2) / 2 + |log √(2 * π * (x.2 ^ 2 + jit ^ 2))|) ∘ fun x => (O.residual gamma x.point, x.point.err))).sum ≤
        (k.map fun x => (|x.res gamma| + x.resErr gamma) ^ 2 / x.var jit / 2 + |log √(2 * π * x.var jit)|).sum := by
    intro k hk
    induction k with
    | nil => simp
    | cons x k ih =>
      obtain ⟨i1, i2⟩ := ih (fun y hy => hk y (by simp [hy]))
      have hx : x ∈ l := hk x (by simp)
      have hQ0 : 0 < x.var jit := lt_of_lt_of_le (by norm_num) (quad_ge jit (hs x hx)).2
      obtain ⟨s1, s2⟩ := sq_near (C174_residual hO gamma x (hv x hx))
      simp only [List.map_cons, List.sum_cons, Function.comp] at i1 i2 ⊢
      have d : ∀ r : ℝ, log (gaussianPDFReal 0 (x.point.err ^ 2 + jit ^ 2).toNNReal r) = -(r ^ 2 / x.var jit / 2) - log √(2 * π * x.var jit) := by
        intro r
        have := sum_density [(r, x.point.err)] jit (by simpa using hs x hx)
        simp only [List.map_cons, List.map_nil, List.sum_cons, List.sum_nil, add_zero] at this
        rw [this]
        unfold Truth.var
        ring
      constructor
      · rw [logDensity_eq, d, d]
        have t1 : |-(O.residual gamma x.point ^ 2 / x.var jit / 2) - log √(2 * π * x.var jit) - (-(x.res gamma ^ 2 / x.var jit / 2) - log √(2 * π * x.var jit))| ≤ x.resErr gamma * (|x.res gamma| + x.resErr gamma) / x.var jit := by
          rw [show -(O.residual gamma x.point ^ 2 / x.var jit / 2) - log √(2 * π * x.var jit) - (-(x.res gamma ^ 2 / x.var jit / 2) - log √(2 * π * x.var jit)) = -((O.residual gamma x.point ^ 2 - x.res gamma ^ 2) / (2 * x.var jit)) by
            field_simp; ring, abs_neg, abs_div, abs_of_pos (by linarith : 0 < 2 * x.var jit), div_le_div_iff₀ (by linarith) hQ0]
          nlinarith [mul_le_mul_of_nonneg_right s1 hQ0.le]
        refine le_trans ?_ (add_le_add t1 i1)
        refine le_trans (le_of_eq ?_) (abs_add_le _ _)
        congr 1
        ring
      · refine add_le_add (add_le_add ?_ (le_refl _)) i2
        exact div_le_div_of_nonneg_right (div_le_div_of_nonneg_right s2 hQ0.le) (by norm_num)
  obtain ⟨k1, k2⟩ := key l (fun _ h => h)
  have h2 := near_trans h1 k1
  have k3 := mul_le_mul_of_nonneg_left k2 (show (0 : ℝ) ≤ 1.1e-15 + 1.2e-16 * l.length by positivity)
  refine h2.trans ?_
  linarith

/-- The bound of C173 for the error of a computed velocity at time `t`. -/
noncomputable def velError (p : Params ℝ) (orb : Nat → Synth) (tb t : ℝ) : ℝ :=
  ∑ m ∈ Finset.Icc 1 p.numPlanets, |(orb m).k| * (1.431e-9 + 2.11e-12 * (|t - (orb m).tp| / (orb m).per) + 1.21e-16 * |(orb m).w|) +
    1.13e-13 * (|trendOf p .dvdt * (t - tb)| + |trendOf p .curv * (t - tb) ^ 2|) + 2 * (p.numPlanets + 2 + 2 * |trendOf p .curv|) * tiny

/-- C174 for the computed velocities of a model: `obs` are the times, velocities and errors of the measurements, `E m t` the exact eccentric anomalies, `u t` the computed velocities. -/
theorem C174_model (hO : IsLikeDouble O) (solve : ℝ → ℝ → Option ℝ) (formula : ℝ → ℝ → ℝ → ℝ → ℝ) (hc : RoundedSolver O.toOps solve formula) (p : Params ℝ) (h : UserParams p) (orb : Nat → Synth) (ho : Elements p orb)
    (hN : p.numPlanets ≤ 1000) (tb : ℝ) (hper : ∀ m, IsPlanet p m → 0 < (orb m).per ∧ 0 ≤ (orb m).e ∧ (orb m).e ≤ O.lit 0.99) (obs : List (ℝ × ℝ × ℝ)) (hl : obs.length ≤ 1000000) (hs : ∀ x ∈ obs, 1e-50 ≤ |x.2.2|)
    (E : Nat → ℝ → ℝ) (hE : ∀ x ∈ obs, ∀ m, IsPlanet p m → IsEccAnomaly (orb m).e (meanAnomaly x.1 (orb m).tp (orb m).per) (E m x.1))
    (u : ℝ → ℝ) (hu : ∀ x ∈ obs, O.curve (O.driveOf solve formula) tb p x.1 = .ok (some (u x.1))) (gamma jit : ℝ) (truth : List Truth)
    (ht : truth = obs.map fun x => ⟨⟨x.2.1, x.2.2, u x.1⟩, exactModel p orb (fun m => E m x.1) tb x.1, velError p orb tb x.1⟩) :
    |O.logprob gamma jit (obs.map fun x => ⟨x.2.1, x.2.2, u x.1⟩) -
        (obs.map fun x => log (gaussianPDFReal (exactModel p orb (fun m => E m x.1) tb x.1 + gamma) (x.2.2 ^ 2 + jit ^ 2).toNNReal x.2.1)).sum| ≤
      (truth.map fun x => x.resErr gamma * (|x.res gamma| + x.resErr gamma) / x.var jit).sum +
      (1.1e-15 + 1.2e-16 * truth.length) * (truth.map fun x => (|x.res gamma| + x.resErr gamma) ^ 2 / x.var jit / 2 + |log √(2 * π * x.var jit)|).sum + 2e-15 * truth.length + 2 * tiny := by
  subst ht
  have h1 := C174_logprob hO gamma jit (obs.map fun x => ⟨⟨x.2.1, x.2.2, u x.1⟩, exactModel p orb (fun m => E m x.1) tb x.1, velError p orb tb x.1⟩) (by simpa using hl)
    (by intro y hy; obtain ⟨x, hx, rfl⟩ := List.mem_map.1 hy; exact hs x hx)
    (by
      intro y hy
      obtain ⟨x, hx, rfl⟩ := List.mem_map.1 hy
      exact C173_model hO.ops solve formula hc p h orb ho hN tb x.1 hper (fun m => E m x.1) (hE x hx) _ (hu x hx))
  rw [List.map_map, List.map_map] at h1
  exact h1

/-- Arithmetic without rounding. -/
noncomputable def exactLike : LikeOps := ⟨exactOps, Real.log, List.sum⟩

/-- C174: without rounding this is the function of the other theorems. -/
theorem C174_exact (jit : ℝ) (l : List (ℝ × ℝ)) (hs : ∀ x ∈ l, x.2 ≠ 0) :
    loglikeJitter (l.map fun x => some x.1) (l.map fun x => x.2 ^ 2 + jit ^ 2) = .fin (exactLike.loglikeJitter (l.map Prod.fst) (l.map Prod.snd) jit) := by
  have h0 : ¬ ((∃ v ∈ l.map (fun x => x.2 ^ 2 + jit ^ 2), v = 0) ∨ none ∈ l.map (fun x => some x.1)) := by
    rintro (⟨v, hv, rfl⟩ | h)
    · obtain ⟨x, hx, hx2⟩ := List.mem_map.1 hv
      have := hs x hx
      have : 0 < x.2 ^ 2 := by positivity
      nlinarith [sq_nonneg jit]
    · simp at h
  unfold loglikeJitter LikeOps.loglikeJitter
  rw [if_neg h0]
  have hq : exactLike.sumSigQuad jit = fun s => s ^ 2 + jit ^ 2 := by
    funext s
    show s * s + jit * jit = _
    ring
  simp only [hq, List.map_map, zipWith_map_same]
  have e2 : (l.map fun x : ℝ × ℝ => ((some x.1).getD 0) ^ 2 / (x.2 ^ 2 + jit ^ 2)) = l.map fun x => exactLike.div (exactLike.mul x.1 x.1) (((fun s => s ^ 2 + jit ^ 2) ∘ Prod.snd) x) := by
    apply List.map_congr_left
    intro x _
    show x.1 ^ 2 / _ = x.1 * x.1 / _
    rw [sq]
    rfl
  rw [e2]
  rfl

/-! ### non-vacuity -/

theorem isSum_foldl (A : Ops) (l k : List ℝ) (a : ℝ) (n : Nat) (h : IsSum A n l a) : IsSum A (n + k.length) (l ++ k) (k.foldl A.add a) := by
  induction k generalizing l a n with
  | nil => simpa using h
  | cons x k ih =>
    have h1 := ih (l ++ [x]) (A.add a x) (n + 1) (by simpa using h.add (.one x))
    rw [List.length_cons, show n + (k.length + 1) = n + 1 + k.length by omega, List.foldl_cons, ← List.singleton_append, ← List.append_assoc]
    exact h1

/-- Rounding after every operation, sums from left to right. -/
noncomputable def gridLike : LikeOps := ⟨gridOps, fun a => gridRound (Real.log a), fun l => l.foldl gridOps.add 0⟩

theorem gridLike_double : IsLikeDouble gridLike := by
  refine ⟨gridOps_double, fun a _ => ?_, fun l => ⟨l.length, le_refl _, ?_⟩⟩
  · refine (gridRound_err _).trans (mul_le_mul_of_nonneg_right ?_ (abs_nonneg _))
    unfold libErr; linarith [unit_pos]
  · have h := isSum_foldl gridOps [] l 0 0 .nil
    rw [Nat.zero_add, List.nil_append] at h
    exact h

/-- The hypotheses of C174 hold for two measurements with an arithmetic that rounds; a sum in pairs is covered. -/
example : IsLikeDouble gridLike ∧ (∀ x ∈ [(⟨⟨3, 0.5, 1⟩, 1.001, 0.01⟩ : Truth), ⟨⟨-2, 0.25, 1⟩, 1, 0⟩], 1e-50 ≤ |x.point.err| ∧ |x.point.mod - x.vel| ≤ x.eps) ∧
    IsSum gridOps 2 [1, 2, 3, 4] (gridOps.add (gridOps.add 1 2) (gridOps.add 3 4)) := by
  refine ⟨gridLike_double, ?_, ?_⟩
  · intro x hx
    simp only [List.mem_cons, List.not_mem_nil, or_false] at hx
    rcases hx with rfl | rfl <;> norm_num [abs_le, le_abs]
  · have h := ((IsSum.one (A := gridOps) 1).add (.one 2)).add ((IsSum.one (A := gridOps) 3).add (.one 4))
    simpa using h

/-- The hypotheses of `C174_model` hold for two planets and a measurement, with an arithmetic that rounds. -/
example : ∃ (p : Params ℝ) (orb : Nat → Synth) (u : ℝ → ℝ) (E : Nat → ℝ → ℝ), p.numPlanets = 2 ∧ UserParams p ∧ Elements p orb ∧ IsLikeDouble gridLike ∧ RoundedSolver gridLike.toOps gridLike.cSolve gridLike.rvC ∧
    (∀ m, IsPlanet p m → 0 < (orb m).per ∧ 0 ≤ (orb m).e ∧ (orb m).e ≤ gridLike.lit 0.99) ∧
    ∀ x ∈ [((1 / 2, 3, 1) : ℝ × ℝ × ℝ)], 1e-50 ≤ |x.2.2| ∧ gridLike.curve (gridLike.driveOf gridLike.cSolve gridLike.rvC) 0 p x.1 = .ok (some (u x.1)) ∧
      ∀ m, IsPlanet p m → IsEccAnomaly (orb m).e (meanAnomaly x.1 (orb m).tp (orb m).per) (E m x.1) := by
  obtain ⟨p, orb, h1, h2, h3, h4, h5, -, u, hu⟩ := rounded_two_planets
  have : ∀ m, ∃ E, IsPlanet p m → IsEccAnomaly (orb m).e (meanAnomaly (1 / 2) (orb m).tp (orb m).per) E := by
    intro m
    by_cases hm : IsPlanet p m
    · obtain ⟨_, g2, g3⟩ := h5 m hm
      obtain ⟨E, hE⟩ := ecc_exists (orb m).e (meanAnomaly (1 / 2) (orb m).tp (orb m).per) g2.le (by have := lit_99 h4 g3; norm_num at this; linarith)
      exact ⟨E, fun _ => hE⟩
    · exact ⟨0, fun h => absurd h hm⟩
  choose E hE using this
  refine ⟨p, orb, fun _ => u, fun m _ => E m, h1, h2, h3, gridLike_double, .inr ⟨rfl, rfl⟩, fun m hm => ⟨(h5 m hm).1, (h5 m hm).2.1.le, (h5 m hm).2.2⟩, ?_⟩
  intro x hx
  rw [List.mem_singleton] at hx
  subst hx
  exact ⟨by norm_num [le_abs], hu, hE⟩

end Radvel
