import Verif.Model.RoundedModel
import Verif.Props.Rounding
import Verif.Props.Accuracy

/-!
# The velocities of a model in double precision (C173)
-/

namespace Radvel

open Real

variable {A : Ops}

/-- `RVModel(params, time_base)(t)` with rounded operations. -/
noncomputable def Ops.curve (A : Ops) (drive : Drive) (timeBase : ℝ) (p : Params ℝ) (t : ℝ) : Except PyErr (Option ℝ) :=
  match VState.init p with
  | .error e => .error e
  | .ok s => A.modelCall drive timeBase s none t

/-- A solver and a formula of the code, with rounded operations: NumPy or C. -/
def RoundedSolver (A : Ops) (solve : ℝ → ℝ → Option ℝ) (formula : ℝ → ℝ → ℝ → ℝ → ℝ) : Prop := (∃ n, solve = A.npSolve n ∧ formula = A.rvNumpy) ∨ (solve = A.cSolve ∧ formula = A.rvC)

theorem Ops.addPlanet_ok (drive : Drive) (t : ℝ) (rows : List (Row ℝ)) (vel : Option ℝ) (i : Nat) (sy : Synth)
    (h : ∀ j : Nat, j < 5 → (rows[5 * i + j]?).map Row.value = some ((blockOf .perTpEWK (valOf sy)).at j)) :
    A.addPlanet drive t rows vel i = .ok (A.addNan vel (drive t sy)) := by
  have h0 := h 0 (by omega)
  have h1 := h 1 (by omega)
  have h2 := h 2 (by omega)
  have h3 := h 3 (by omega)
  have h4 := h 4 (by omega)
  simp only [Nat.add_zero, Option.map_eq_some_iff] at h0 h1 h2 h3 h4
  obtain ⟨r0, e0, f0⟩ := h0
  obtain ⟨r1, e1, f1⟩ := h1
  obtain ⟨r2, e2, f2⟩ := h2
  obtain ⟨r3, e3, f3⟩ := h3
  obtain ⟨r4, e4, f4⟩ := h4
  simp only [Ops.addPlanet, e0, e1, e2, e3, e4, f0, f1, f2, f3, f4]
  rfl

theorem Ops.foldlM_addPlanet (drive : Drive) (t : ℝ) (rows : List (Row ℝ)) (sy : Nat → Synth) (l : List Nat) (vel : Option ℝ)
    (h : ∀ i ∈ l, ∀ j : Nat, j < 5 → (rows[5 * i + j]?).map Row.value = some ((blockOf .perTpEWK (valOf (sy i))).at j)) :
    l.foldlM (A.addPlanet drive t rows) vel = .ok (l.foldl (fun acc i => A.addNan acc (drive t (sy i))) vel) := by
  induction l generalizing vel with
  | nil => rfl
  | cons a l ih =>
    rw [List.foldlM_cons, Ops.addPlanet_ok drive t rows vel a (sy a) (fun j hj => h a (by simp) j hj)]
    exact ih _ (fun i hi => h i (List.mem_cons_of_mem _ hi))

theorem Ops.modelCall_fresh {s : VState ℝ} (h : Fresh s) (drive : Drive) (tb t : ℝ) :
    A.modelCall drive tb s none t = .ok (A.addNan (A.addNan
      ((List.range s.params.numPlanets).foldl
        (fun acc i => A.addNan acc (drive t (synthOfVals s.params.basis (valsOf s.params (i + 1))))) (some 0))
      (some (A.mul (trendOf s.params .dvdt) (A.sub t tb)))) (some (A.mul (trendOf s.params .curv) (A.mul (A.sub t tb) (A.sub t tb))))) := by
  obtain ⟨rows', e1, _, e3, _⟩ := vToSynth_spec h
  have h2 : A.standardRvCalc drive t s none = .ok ((List.range s.params.numPlanets).foldl
      (fun acc i => A.addNan acc (drive t (synthOfVals s.params.basis (valsOf s.params (i + 1))))) (some 0)) := by
    unfold Ops.standardRvCalc
    rw [e1]
    exact Ops.foldlM_addPlanet drive t rows' (fun i => synthOfVals s.params.basis (valsOf s.params (i + 1)))
      (List.range s.params.numPlanets) (some 0) (fun i hi j hj => e3 i j (by simpa using hi) hj)
  unfold Ops.modelCall
  rw [h2, h.trendRow .dvdt (.inl rfl), h.trendRow .curv (.inr rfl)]
  rfl

theorem Ops.addNan_some {a b : Option ℝ} {u : ℝ} (h : A.addNan a b = some u) : ∃ x y, a = some x ∧ b = some y ∧ u = A.add x y := by
  cases a <;> cases b <;> simp [Ops.addNan] at h
  exact ⟨_, _, rfl, rfl, h.symm⟩

/-- If the sum is a number, so are all terms. -/
theorem Ops.foldl_some (d : Nat → Option ℝ) (l : List Nat) (a : Option ℝ) (u : ℝ) (h : l.foldl (fun acc i => A.addNan acc (d i)) a = some u) :
    ∃ x, a = some x ∧ (∀ i ∈ l, ∃ v, d i = some v) ∧ u = (l.map fun i => (d i).getD 0).foldl A.add x := by
  induction l generalizing a with
  | nil => exact ⟨u, h, by simp, rfl⟩
  | cons i l ih =>
    obtain ⟨x, h1, h2, h3⟩ := ih _ h
    obtain ⟨y, z, rfl, h5, rfl⟩ := Ops.addNan_some h1
    refine ⟨y, rfl, ?_, ?_⟩
    · intro j hj
      rcases List.mem_cons.1 hj with rfl | hj
      · exact ⟨z, h5⟩
      · exact h2 j hj
    · rw [h3, List.map_cons, List.foldl_cons, h5, Option.getD_some]

/-- Rounded sums: the error of adding `n` numbers one after the other. -/
theorem round_adds (hA : IsDouble A) (l : List ℝ) (a : ℝ) : |l.foldl A.add a - (a + l.sum)| ≤ ((1 + unitRound) ^ l.length - 1) * (|a| + (l.map abs).sum) := by
  induction l generalizing a with
  | nil => simp
  | cons x l ih =>
    have h1 := ih (A.add a x)
    have h2 := hA.add a x
    have h3 := abs_add_le a x
    have hu := unit_pos
    have hs : 0 ≤ (l.map abs).sum := List.sum_nonneg (by simp only [List.mem_map]; rintro _ ⟨y, _, rfl⟩; exact abs_nonneg y)
    have h4 : |A.add a x| ≤ (1 + unitRound) * (|a| + |x|) := by
      have h5 := abs_of_near h2 h3
      nlinarith
    have h6 : |A.add a x - (a + x)| ≤ unitRound * (|a| + |x|) := h2.trans (mul_le_mul_of_nonneg_left h3 hu.le)
    have hg : 0 ≤ (1 + unitRound) ^ l.length - 1 := by
      have := one_le_pow₀ (show (1 : ℝ) ≤ 1 + unitRound by linarith) (n := l.length)
      linarith
    simp only [List.foldl_cons, List.sum_cons, List.length_cons, List.map_cons]
    rw [show a + (x + l.sum) = (a + x) + l.sum by ring]
    have h7 : |(A.add a x + l.sum) - (a + x + l.sum)| ≤ unitRound * (|a| + |x|) := by
      rwa [show A.add a x + l.sum - (a + x + l.sum) = A.add a x - (a + x) by ring]
    refine (near_trans h1 h7).trans ?_
    have h8 := mul_le_mul_of_nonneg_left h4 hg
    rw [pow_succ]
    generalize (1 + unitRound) ^ l.length = G at *
    nlinarith [mul_nonneg hg hs, mul_nonneg (mul_nonneg hu.le hs) (show 0 ≤ G by linarith)]

theorem grow_le (n : Nat) (h : n ≤ 1002) : (1 + unitRound) ^ n - 1 ≤ 1.12e-13 := by
  have hu := unit_pos; have hl := unit_le
  have hu1 : unitRound ≤ 1 := by norm_num at hl; linarith
  have h2 := one_add_mul_le_pow (show (-2 : ℝ) ≤ -unitRound by linarith) n
  have h3 : (1 + unitRound) ^ n * (1 + -unitRound) ^ n ≤ 1 := by
    rw [← mul_pow]
    apply pow_le_one₀ <;> nlinarith
  have hn : (n : ℝ) ≤ 1002 := by exact_mod_cast h
  have h4 : (1 : ℝ) - 1.1126e-13 ≤ (1 + -unitRound) ^ n := by
    refine le_trans ?_ h2
    have := mul_le_mul hn hl hu.le (by norm_num)
    norm_num at this ⊢; linarith
  have h5 : 0 ≤ (1 + unitRound) ^ n := by positivity
  have h6 := mul_le_mul_of_nonneg_left h4 h5
  have h7 := h6.trans h3
  generalize (1 + unitRound) ^ n = G at *
  norm_num at h7 ⊢
  linarith

/-- The velocity of an orbit is at most twice its amplitude. -/
theorem exactVel_le {e : ℝ} (he : 0 ≤ e) (he1 : e < 1) (om k E : ℝ) : |exactVel e om k E| ≤ 2 * |k| := by
  have h := cosNu_sq_add_sinNu_sq he he1 E
  have h2 := Real.sin_sq_add_cos_sq om
  unfold exactVel
  rw [abs_mul, mul_comm 2]
  refine mul_le_mul_of_nonneg_left ?_ (abs_nonneg k)
  have h3 : |cosNu e E * cos om - sinNu e E * sin om| ≤ 1 := by
    rw [abs_le_one_iff_mul_self_le_one]
    nlinarith [sq_nonneg (cosNu e E * sin om + sinNu e E * cos om)]
  have h4 : |e * cos om| ≤ 1 := by
    rw [abs_mul, abs_of_nonneg he]
    have := Real.abs_cos_le_one om
    nlinarith [abs_nonneg (cos om)]
  exact (abs_add_le _ _).trans (by linarith)

/-- The slope term. -/
theorem round_slope (hA : IsDouble A) (c t tb : ℝ) : |A.mul c (A.sub t tb) - c * (t - tb)| ≤ 2.3e-16 * |c * (t - tb)| + tiny := by
  have h1 := hA.sub t tb
  have h2 := hA.mul c (A.sub t tb)
  have hu := unit_pos; have hl := unit_le
  generalize A.sub t tb = d at *
  generalize t - tb = D at *
  have h3 : |c * d - c * D| ≤ unitRound * |c * D| := by
    rw [← mul_sub, abs_mul, abs_mul]
    nlinarith [mul_le_mul_of_nonneg_left h1 (abs_nonneg c)]
  have h4 := abs_of_near h3 (le_refl _)
  refine (near_trans h2 h3).trans ?_
  have h5 := abs_nonneg (c * D)
  have h6 : unitRound * |c * d| ≤ unitRound * ((1 + unitRound) * |c * D|) := mul_le_mul_of_nonneg_left (by linarith) hu.le
  have h7 : unitRound * (1 + unitRound) + unitRound ≤ 2.3e-16 := by norm_num at hl ⊢; nlinarith
  have h8 := mul_le_mul_of_nonneg_right h7 h5
  linarith

/-- The curvature term. -/
theorem round_curv (hA : IsDouble A) (c t tb : ℝ) : |A.mul c (A.mul (A.sub t tb) (A.sub t tb)) - c * (t - tb) ^ 2| ≤ 4.6e-16 * |c * (t - tb) ^ 2| + (2 * |c| + 1) * tiny := by
  have hu := unit_pos; have hl := unit_le; have ht := tiny_pos
  have h1 := round_slope hA (A.sub t tb) t tb
  have h0 := hA.sub t tb
  have h2 := hA.mul c (A.mul (A.sub t tb) (A.sub t tb))
  generalize A.sub t tb = d at *
  generalize t - tb = D at *
  have h3 : |d * D - D ^ 2| ≤ unitRound * D ^ 2 := by
    rw [show d * D - D ^ 2 = (d - D) * D by ring, abs_mul, ← sq_abs D]
    nlinarith [mul_le_mul_of_nonneg_right h0 (abs_nonneg D)]
  have hD : |D ^ 2| ≤ D ^ 2 := by rw [abs_of_nonneg (sq_nonneg D)]
  have h4 := abs_of_near h3 hD
  have h5 := near_trans h1 h3
  have h6 : |A.mul d d - D ^ 2| ≤ 3.42e-16 * D ^ 2 + tiny := by
    refine h5.trans ?_
    have hq := sq_nonneg D
    have hm := mul_le_mul_of_nonneg_right hl hq
    generalize D ^ 2 = Q at *
    generalize |d * D| = R at *
    norm_num at hm ⊢
    linarith
  generalize A.mul d d = q at *
  have h7 : |c * q - c * D ^ 2| ≤ 3.42e-16 * |c * D ^ 2| + |c| * tiny := by
    rw [← mul_sub, abs_mul, abs_mul, abs_of_nonneg (sq_nonneg D)]
    nlinarith [mul_le_mul_of_nonneg_left h6 (abs_nonneg c)]
  have h8 := abs_of_near h7 (le_refl _)
  refine (near_trans h2 h7).trans ?_
  have h9 := abs_nonneg (c * D ^ 2)
  have h10 : unitRound * |c * q| ≤ 1.1103e-16 * (|c * D ^ 2| + (3.42e-16 * |c * D ^ 2| + |c| * tiny)) := mul_le_mul hl h8 (abs_nonneg _) (by norm_num)
  have h11 := mul_nonneg (abs_nonneg c) ht.le
  generalize |c * D ^ 2| = Q at *
  generalize unitRound * |c * q| = R at *
  norm_num at h10 ⊢
  linarith

theorem range_sum (f : Nat → ℝ) (N : Nat) : ((List.range N).map fun i => f (i + 1)).sum = ∑ m ∈ Finset.Icc 1 N, f m := by
  induction N with
  | zero => simp
  | succ n ih => rw [List.range_succ, List.map_append, List.sum_append, ih, Finset.sum_Icc_succ_top (by omega)]; simp

theorem planet_total {v x k q w d : ℝ} (h1 : |v - x| ≤ |k| * (1.43e-9 + 2.1e-12 * q + 1.2e-16 * |w|) + d) (h2 : |x| ≤ 2 * |k|) (hq : 0 ≤ q) (hw : 0 ≤ |w|) (hd : 0 ≤ d) :
    |v - x| + 1.12e-13 * |v| ≤ |k| * (1.431e-9 + 2.11e-12 * q + 1.21e-16 * |w|) + 2 * d := by
  have h3 := abs_of_near h1 h2
  have hk := abs_nonneg k
  have a1 := mul_nonneg hk hq
  have a2 := mul_nonneg hk hw
  generalize |v - x| = r at *
  generalize |v| = y at *
  generalize |x| = z at *
  rw [mul_add, mul_add] at *
  generalize |k| = K at *
  generalize |w| = W at *
  rw [show K * (2.1e-12 * q) = 2.1e-12 * (K * q) by ring, show K * (1.2e-16 * W) = 1.2e-16 * (K * W) by ring] at *
  rw [show K * (2.11e-12 * q) = 2.11e-12 * (K * q) by ring, show K * (1.21e-16 * W) = 1.21e-16 * (K * W) by ring]
  norm_num at h1 h3 ⊢
  linarith

theorem total_le {a V X S B G n y1 y2 x1 x2 c d : ℝ} (h : |a - (0 + (V + (y1 + (y2 + 0))))| ≤ G * (0 + (S + (|y1| + (|y2| + 0))))) (hg : G ≤ 1.12e-13) (hp : |V - X| + 1.12e-13 * S ≤ B + n * (2 * d))
    (h1 : |y1 - x1| ≤ 2.3e-16 * |x1| + d) (h2 : |y2 - x2| ≤ 4.6e-16 * |x2| + (2 * c + 1) * d) (hS : 0 ≤ S) (hc : 0 ≤ c) (hd : 0 ≤ d) :
    |a - (X + x1 + x2)| ≤ B + 1.13e-13 * (|x1| + |x2|) + 2 * (n + 2 + 2 * c) * d := by
  have b1 := abs_of_near h1 (le_refl _)
  have b2 := abs_of_near h2 (le_refl _)
  have hy : 0 ≤ 0 + (S + (|y1| + (|y2| + 0))) := by positivity
  have h3 := h.trans (mul_le_mul_of_nonneg_right hg hy)
  have h4 : |a - (X + x1 + x2)| ≤ |a - (0 + (V + (y1 + (y2 + 0))))| + |V - X| + |y1 - x1| + |y2 - x2| := by
    rw [show a - (X + x1 + x2) = (a - (0 + (V + (y1 + (y2 + 0))))) + (V - X) + (y1 - x1) + (y2 - x2) by ring]
    exact (abs_add_le _ _).trans (add_le_add_left ((abs_add_le _ _).trans (add_le_add_left (abs_add_le _ _) _)) _)
  have p1 := abs_nonneg x1; have p2 := abs_nonneg x2
  have hcd := mul_nonneg hc hd
  generalize |a - (X + x1 + x2)| = t1 at *
  generalize |a - (0 + (V + (y1 + (y2 + 0))))| = t2 at *
  generalize |V - X| = t3 at *
  generalize |y1 - x1| = t4 at *
  generalize |y2 - x2| = t5 at *
  generalize |y1| = t6 at *
  generalize |y2| = t7 at *
  generalize |x1| = t8 at *
  generalize |x2| = t9 at *
  norm_num at h1 h2 h3 hp b1 b2 ⊢
  linarith

/-- The exact model: the orbits, the slope and the curvature. -/
noncomputable def exactModel (p : Params ℝ) (orb : Nat → Synth) (E : Nat → ℝ) (tb t : ℝ) : ℝ :=
  ∑ m ∈ Finset.Icc 1 p.numPlanets, exactVel (orb m).e (orb m).w (orb m).k (E m) + trendOf p .dvdt * (t - tb) + trendOf p .curv * (t - tb) ^ 2

/-- C173: with any solver of the code in double precision, any number of planets up to 1000 (periods positive, eccentricities from 0 to 0.99) and any trend, a number returned by `model(t)` differs from the exact velocity by at most
`1.431e-9 k` for every planet, `2.11e-12 k` for every period that separates it from its periastron, `1.21e-16 k` per radian of its argument, and `1.13e-13` times the slope and curvature terms; underflow adds a few times `tiny`. -/
theorem C173_model (hA : IsDouble A) (solve : ℝ → ℝ → Option ℝ) (formula : ℝ → ℝ → ℝ → ℝ → ℝ) (hc : RoundedSolver A solve formula) (p : Params ℝ) (h : UserParams p) (orb : Nat → Synth) (ho : Elements p orb)
    (hN : p.numPlanets ≤ 1000) (tb t : ℝ) (hper : ∀ m, IsPlanet p m → 0 < (orb m).per ∧ 0 ≤ (orb m).e ∧ (orb m).e ≤ A.lit 0.99) (E : Nat → ℝ)
    (hE : ∀ m, IsPlanet p m → IsEccAnomaly (orb m).e (meanAnomaly t (orb m).tp (orb m).per) (E m)) (u : ℝ) (hu : A.curve (A.driveOf solve formula) tb p t = .ok (some u)) :
    |u - exactModel p orb E tb t| ≤ ∑ m ∈ Finset.Icc 1 p.numPlanets, |(orb m).k| * (1.431e-9 + 2.11e-12 * (|t - (orb m).tp| / (orb m).per) + 1.21e-16 * |(orb m).w|) +
      1.13e-13 * (|trendOf p .dvdt * (t - tb)| + |trendOf p .curv * (t - tb) ^ 2|) + 2 * (p.numPlanets + 2 + 2 * |trendOf p .curv|) * tiny := by
  obtain ⟨s, f1, f2, f3, _⟩ := h.good.model
  unfold Ops.curve at hu
  rw [f1] at hu
  simp only at hu
  rw [Ops.modelCall_fresh f2, f3] at hu
  obtain ⟨x2, y2, g1, g2, rfl⟩ := Ops.addNan_some (Except.ok.inj hu)
  obtain ⟨x1, y1, g3, g4, rfl⟩ := Ops.addNan_some g1
  obtain ⟨x0, g5, g6, rfl⟩ := Ops.foldl_some _ _ _ _ g3
  cases g2; cases g4; cases g5
  have hmem : ∀ i ∈ List.range p.numPlanets, IsPlanet p (i + 1) := by intro i hi; simp at hi; exact ⟨by omega, by omega⟩
  set v : Nat → ℝ := fun m => (A.driveOf solve formula t (orb m)).getD 0 with hv
  have hmap : (List.range p.numPlanets).map (fun i => (A.driveOf solve formula t (synthOfVals p.basis (valsOf p (i + 1)))).getD 0) = (List.range p.numPlanets).map (fun i => v (i + 1)) := by
    apply List.map_congr_left
    intro i hi
    rw [← ho.eq h.good.complete _ (hmem i hi)]
  rw [hmap]
  have one : ∀ m ∈ Finset.Icc 1 p.numPlanets, |v m - exactVel (orb m).e (orb m).w (orb m).k (E m)| ≤ |(orb m).k| * (1.43e-9 + 2.1e-12 * (|t - (orb m).tp| / (orb m).per) + 1.2e-16 * |(orb m).w|) + tiny ∧
      |exactVel (orb m).e (orb m).w (orb m).k (E m)| ≤ 2 * |(orb m).k| := by
    intro m hm
    rw [Finset.mem_Icc] at hm
    obtain ⟨w, hw⟩ := g6 (m - 1) (by simp; omega)
    rw [show m - 1 + 1 = m by omega, ← ho.eq h.good.complete _ hm] at hw
    obtain ⟨h1, h2, h3⟩ := hper m hm
    have hvw : v m = w := by rw [hv]; simp only [hw, Option.getD_some]
    rw [hvw]
    refine ⟨?_, exactVel_le h2 (by have := lit_99 hA h3; norm_num at this; linarith) _ _ _⟩
    rcases hc with ⟨n, rfl, rfl⟩ | ⟨rfl, rfl⟩
    · exact C169_numpy hA n _ _ _ _ _ _ _ _ h1 h2 h3 (hE m hm) hw
    · exact C169_c hA _ _ _ _ _ _ _ _ h1 h2 h3 (hE m hm) hw
  have r1 := round_slope hA (trendOf p .dvdt) t tb
  have r2 := round_curv hA (trendOf p .curv) t tb
  generalize A.mul (trendOf p .dvdt) (A.sub t tb) = y1 at *
  generalize A.mul (trendOf p .curv) (A.mul (A.sub t tb) (A.sub t tb)) = y2 at *
  have hsum := round_adds hA ((List.range p.numPlanets).map (fun i => v (i + 1)) ++ [y1, y2]) 0
  simp only [List.foldl_append, List.foldl_cons, List.foldl_nil, List.sum_append, List.sum_cons, List.sum_nil, List.length_append, List.length_map, List.length_range, List.length_cons, List.length_nil, List.map_append,
    List.map_cons, List.map_nil, List.map_map, abs_zero] at hsum
  rw [range_sum v, show (abs ∘ fun i => v (i + 1)) = (fun i => (fun m => |v m|) (i + 1)) from rfl, range_sum (fun m => |v m|)] at hsum
  have hg := grow_le (p.numPlanets + (0 + 1 + 1)) (by omega)
  have hu := unit_pos; have ht := tiny_pos
  have hplan : |∑ m ∈ Finset.Icc 1 p.numPlanets, v m - ∑ m ∈ Finset.Icc 1 p.numPlanets, exactVel (orb m).e (orb m).w (orb m).k (E m)| + 1.12e-13 * ∑ m ∈ Finset.Icc 1 p.numPlanets, |v m| ≤
      ∑ m ∈ Finset.Icc 1 p.numPlanets, |(orb m).k| * (1.431e-9 + 2.11e-12 * (|t - (orb m).tp| / (orb m).per) + 1.21e-16 * |(orb m).w|) + p.numPlanets * (2 * tiny) := by
    rw [← Finset.sum_sub_distrib]
    refine (add_le_add_left (Finset.abs_sum_le_sum_abs _ _) _).trans ?_
    have hc : (p.numPlanets : ℝ) * (2 * tiny) = ∑ m ∈ Finset.Icc 1 p.numPlanets, 2 * tiny := by simp
    rw [hc, Finset.mul_sum, ← Finset.sum_add_distrib, ← Finset.sum_add_distrib]
    refine Finset.sum_le_sum fun m hm => ?_
    obtain ⟨o1, o2⟩ := one m hm
    have hq : 0 ≤ |t - (orb m).tp| / (orb m).per := div_nonneg (abs_nonneg _) (hper m (by rw [Finset.mem_Icc] at hm; exact hm)).1.le
    exact planet_total o1 o2 hq (abs_nonneg _) ht.le
  refine total_le hsum hg hplan r1 r2 ?_ (abs_nonneg _) ht.le
  exact Finset.sum_nonneg fun m _ => abs_nonneg _

/-- C173: with or without the C extension, the computed models differ by at most twice that. -/
theorem C173_agree (hA : IsDouble A) (fuel : Nat) (p : Params ℝ) (h : UserParams p) (orb : Nat → Synth) (ho : Elements p orb)
    (hN : p.numPlanets ≤ 1000) (tb t : ℝ) (hper : ∀ m, IsPlanet p m → 0 < (orb m).per ∧ 0 ≤ (orb m).e ∧ (orb m).e ≤ A.lit 0.99)
    (u u' : ℝ) (hu : A.curve (A.driveOf (A.npSolve fuel) A.rvNumpy) tb p t = .ok (some u)) (hu' : A.curve (A.driveOf A.cSolve A.rvC) tb p t = .ok (some u')) :
    |u - u'| ≤ 2 * (∑ m ∈ Finset.Icc 1 p.numPlanets, |(orb m).k| * (1.431e-9 + 2.11e-12 * (|t - (orb m).tp| / (orb m).per) + 1.21e-16 * |(orb m).w|) +
      1.13e-13 * (|trendOf p .dvdt * (t - tb)| + |trendOf p .curv * (t - tb) ^ 2|) + 2 * (p.numPlanets + 2 + 2 * |trendOf p .curv|) * tiny) := by
  have : ∀ m, ∃ E, IsPlanet p m → IsEccAnomaly (orb m).e (meanAnomaly t (orb m).tp (orb m).per) E := by
    intro m
    by_cases hm : IsPlanet p m
    · obtain ⟨_, h2, h3⟩ := hper m hm
      obtain ⟨E, hE⟩ := ecc_exists (orb m).e (meanAnomaly t (orb m).tp (orb m).per) h2 (by have := lit_99 hA h3; norm_num at this; linarith)
      exact ⟨E, fun _ => hE⟩
    · exact ⟨0, fun h => absurd h hm⟩
  choose E hE using this
  have h1 := C173_model hA _ _ (.inl ⟨fuel, rfl, rfl⟩) p h orb ho hN tb t hper E hE u hu
  have h2 := C173_model hA _ _ (.inr ⟨rfl, rfl⟩) p h orb ho hN tb t hper E hE u' hu'
  rw [abs_sub_comm] at h2
  rw [two_mul]
  exact near_trans h1 h2

/-- C173: without rounding the rounded model is the model of the other theorems. -/
theorem C173_exact (drive : Drive) (tb t : ℝ) (p : Params ℝ) (fuel : Nat) :
    exactOps.curve drive tb p t = curve drive tb p t ∧ exactOps.driveOf (exactOps.npSolve fuel) exactOps.rvNumpy = driveOf (npSolve fuel) rvNumpy ∧ exactOps.driveOf exactOps.cSolve exactOps.rvC = driveOf cSolve rvC := by
  refine ⟨?_, ?_, ?_⟩
  · unfold Ops.curve curve
    cases VState.init p with
    | error e => rfl
    | ok s =>
      have hn : exactOps.addNan = addNan := by funext a b; cases a <;> cases b <;> rfl
      have hp : exactOps.addPlanet = addPlanet := by
        funext d t r v i
        unfold Ops.addPlanet addPlanet
        rw [hn]
        rfl
      have hs : exactOps.standardRvCalc = standardRvCalc := by
        funext d t s o
        unfold Ops.standardRvCalc standardRvCalc
        rw [hp]
        rfl
      simp only
      unfold Ops.modelCall modelCall
      rw [hs, hn]
      have hm : exactOps.mul (exactOps.sub t tb) (exactOps.sub t tb) = (t - tb) ^ 2 := by rw [sq]; rfl
      rw [hm]
      rfl
  · funext t s; exact (C169_exact _ _ _ _ _ _ fuel).1
  · funext t s; exact (C169_exact _ _ _ _ _ _ fuel).2

/-- The hypotheses of C173 hold, with an arithmetic that rounds, for two planets of period 1/2 and eccentricity 1/2, with either solver. -/
theorem rounded_two_planets : ∃ (p : Params ℝ) (orb : Nat → Synth), p.numPlanets = 2 ∧ UserParams p ∧ Elements p orb ∧ IsDouble gridOps ∧ (∀ m, IsPlanet p m → 0 < (orb m).per ∧ 0 < (orb m).e ∧ (orb m).e ≤ gridOps.lit 0.99) ∧
    (∃ u, gridOps.curve (gridOps.driveOf (gridOps.npSolve 0) gridOps.rvNumpy) 0 p (1 / 2) = .ok (some u)) ∧ ∃ u, gridOps.curve (gridOps.driveOf gridOps.cSolve gridOps.rvC) 0 p (1 / 2) = .ok (some u) := by
  have hu : UserParams (Params.init (1 / 2 : ℝ) 2 .perTpEWK none) := .new _ _ _ _ (by decide)
  have key : ∀ m, IsPlanet (Params.init (1 / 2 : ℝ) 2 .perTpEWK none) m → synthOfVals (Params.init (1 / 2 : ℝ) 2 .perTpEWK none).basis (valsOf (Params.init (1 / 2 : ℝ) 2 .perTpEWK none) m) = ⟨1 / 2, 1 / 2, 1 / 2, 1 / 2, 1 / 2⟩ := by
    rintro m ⟨h1, h2⟩
    have h2 : m ≤ 2 := h2
    have : m = 1 ∨ m = 2 := by omega
    rcases this with rfl | rfl <;> rfl
  have l99 : gridOps.lit 0.99 = 0.99 := by
    show gridRound 0.99 = 0.99
    unfold gridRound
    rw [if_neg]
    norm_num [abs_of_pos]
  have l12 : gridOps.lit 1e-12 = 1e-12 := by
    show gridRound 1e-12 = 1e-12
    unfold gridRound
    rw [if_neg]
    norm_num [abs_of_pos]
  have hm : gridOps.meanAnomaly (1 / 2) (1 / 2) (1 / 2) = 0 := by
    simp [Ops.meanAnomaly, gridOps, gridRound_zero]
  have hfi : gridOps.fi 0 (1 / 2) 0 = 0 := by simp [Ops.fi, gridOps, gridRound_zero]
  have hun : gridOps.unconverged 0 (1 / 2) (some 0) = false := by
    simp only [Ops.unconverged, hfi, l12, abs_zero, decide_eq_false_iff_not, gt_iff_lt, not_lt]
    norm_num
  have hg : ∀ x : ℝ, gridOps.add 0 (gridOps.mul (gridOps.mul 0 x) (1 / 2)) = 0 := by intro x; simp [gridOps, gridRound_zero]
  have hs : gridOps.sin 0 = 0 := by simp [gridOps, gridRound_zero]
  have hcs : cSign 0 = 0 := by unfold cSign; norm_num
  have s1 : gridOps.npSolve 0 0 (1 / 2) = some 0 := by
    unfold Ops.npSolve
    rw [hs]
    simp only [sign_zero, SignType.coe_zero, hg]
    unfold Ops.npLoop
    simp only [hun]
    rfl
  have s2 : gridOps.cSolve 0 (1 / 2) = some 0 := by
    unfold Ops.cSolve
    rw [hs, hcs, hg]
    unfold Ops.cLoop
    simp only [hun]
    rfl
  have run : ∀ (solve : ℝ → ℝ → Option ℝ) (formula : ℝ → ℝ → ℝ → ℝ → ℝ), solve 0 (1 / 2) = some 0 → ∃ u, gridOps.curve (gridOps.driveOf solve formula) 0 (Params.init (1 / 2 : ℝ) 2 .perTpEWK none) (1 / 2) = .ok (some u) := by
    intro solve formula h0
    obtain ⟨s, f1, f2, f3, _⟩ := hu.good.model
    have hd : gridOps.driveOf solve formula (1 / 2) ⟨1 / 2, 1 / 2, 1 / 2, 1 / 2, 1 / 2⟩ = some (formula (1 / 2) (1 / 2) (1 / 2) 0) := by
      simp only [Ops.driveOf, Ops.rvDrive, l99, if_neg (show ¬ (1 / 2 : ℝ) = 0 by norm_num), if_neg (show ¬ (1 / 2 : ℝ) < 0 by norm_num), if_neg (show ¬ (1 / 2 : ℝ) > 0.99 by norm_num), hm, h0, Option.map_some]
    unfold Ops.curve
    rw [f1]
    simp only
    rw [Ops.modelCall_fresh f2, f3]
    have hN : (Params.init (1 / 2 : ℝ) 2 .perTpEWK none).numPlanets = 2 := rfl
    rw [hN]
    simp only [List.range_succ, List.range_zero, List.nil_append, List.cons_append, List.foldl_cons, List.foldl_nil]
    rw [key (0 + 1) ⟨by omega, by rw [hN]; omega⟩, key (1 + 1) ⟨by omega, by rw [hN]⟩, hd]
    exact ⟨_, rfl⟩
  refine ⟨_, _, rfl, hu, elements_exist _ hu.good.complete, gridOps_double, ?_, run _ _ s1, run _ _ s2⟩
  intro m hm
  rw [key m hm, l99]
  norm_num

end Radvel
